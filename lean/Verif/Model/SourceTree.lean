import Verif.Model.Source
/-
The syntax trees of the texts in `Model/Source`, written by tools/trees.py. That they are the trees of these texts is
`Props/Source.lean` `C75_trees`.
-/
namespace Pb.Go.Tree

/-- size.go:10-15 -/
def size_sizeOfVarint : FuncDecl where
  recv := none
  name := t!"sizeOfVarint"
  params := [(t!"v", (.ident t!"uint64"))]
  results := [(t!"", (.ident t!"int"))]
  body :=
    (.seq (.ret (.arg (.bin .div (.call (.ident t!"int") (.arg (.bin .add (.bin .mul (.num 9) (.call (.ident t!"uint32") (.arg (.call (.sel (.ident t!"bits") t!"Len64") (.arg (.ident t!"v") .none)) .none))) (.num 64)) .none)) (.num 64)) .none))
    .skip)

/-- size.go:17-19 -/
def size_sizeOfVarlen : FuncDecl where
  recv := none
  name := t!"sizeOfVarlen"
  params := [(t!"n", (.ident t!"int"))]
  results := [(t!"", (.ident t!"int"))]
  body :=
    (.seq (.ret (.arg (.bin .add (.call (.ident t!"sizeOfVarint") (.arg (.call (.ident t!"uint64") (.arg (.ident t!"n") .none)) .none)) (.ident t!"n")) .none))
    .skip)

/-- The declarations in `sizeGo`. -/
def size_decls : List Decl := [
  .other t!"package" [.word t!"proto"],
  .imports [t!"math/bits", t!"unsafe"],
  .other t!"type" [.word t!"sizeFunc", .op t!"=", .word t!"func", .op t!"(", .word t!"unsafe", .op t!".", .word t!"Pointer", .op t!",", .op t!"*", .word t!"structField", .op t!")", .word t!"int"],
  .func size_sizeOfVarint,
  .func size_sizeOfVarlen]

/-- encode.go:7-9 -/
def encode_encodeZigZag64 : FuncDecl where
  recv := none
  name := t!"encodeZigZag64"
  params := [(t!"v", (.ident t!"int64"))]
  results := [(t!"", (.ident t!"uint64"))]
  body :=
    (.seq (.ret (.arg (.bin .xor (.bin .shl (.call (.ident t!"uint64") (.arg (.ident t!"v") .none)) (.num 1)) (.call (.ident t!"uint64") (.arg (.bin .shr (.ident t!"v") (.num 63)) .none))) .none))
    .skip)

/-- encode.go:13-91 -/
def encode_appendVarint : FuncDecl where
  recv := none
  name := t!"appendVarint"
  params := [(t!"b", (.un .sliceOf (.ident t!"byte"))), (t!"v", (.ident t!"uint64"))]
  results := [(t!"", (.un .sliceOf (.ident t!"byte")))]
  body :=
    (.seq (.switch .none
    (.case (.arg (.bin .lt (.ident t!"v") (.bin .shl (.num 1) (.num 7))) .none)
    (.seq (.assign (.arg (.ident t!"b") .none) (.arg (.call (.ident t!"append") (.arg (.ident t!"b") (.arg (.call (.ident t!"byte") (.arg (.ident t!"v") .none)) .none))) .none))
    .skip)
    (.case (.arg (.bin .lt (.ident t!"v") (.bin .shl (.num 1) (.num 14))) .none)
    (.seq (.assign (.arg (.ident t!"b") .none) (.arg (.call (.ident t!"append") (.arg (.ident t!"b") (.arg (.call (.ident t!"byte") (.arg (.bin .or (.bin .and (.bin .shr (.ident t!"v") (.num 0)) (.num 127)) (.num 128)) .none)) (.arg (.call (.ident t!"byte") (.arg (.bin .shr (.ident t!"v") (.num 7)) .none)) .none)))) .none))
    .skip)
    (.case (.arg (.bin .lt (.ident t!"v") (.bin .shl (.num 1) (.num 21))) .none)
    (.seq (.assign (.arg (.ident t!"b") .none) (.arg (.call (.ident t!"append") (.arg (.ident t!"b") (.arg (.call (.ident t!"byte") (.arg (.bin .or (.bin .and (.bin .shr (.ident t!"v") (.num 0)) (.num 127)) (.num 128)) .none)) (.arg (.call (.ident t!"byte") (.arg (.bin .or (.bin .and (.bin .shr (.ident t!"v") (.num 7)) (.num 127)) (.num 128)) .none)) (.arg (.call (.ident t!"byte") (.arg (.bin .shr (.ident t!"v") (.num 14)) .none)) .none))))) .none))
    .skip)
    (.case (.arg (.bin .lt (.ident t!"v") (.bin .shl (.num 1) (.num 28))) .none)
    (.seq (.assign (.arg (.ident t!"b") .none) (.arg (.call (.ident t!"append") (.arg (.ident t!"b") (.arg (.call (.ident t!"byte") (.arg (.bin .or (.bin .and (.bin .shr (.ident t!"v") (.num 0)) (.num 127)) (.num 128)) .none)) (.arg (.call (.ident t!"byte") (.arg (.bin .or (.bin .and (.bin .shr (.ident t!"v") (.num 7)) (.num 127)) (.num 128)) .none)) (.arg (.call (.ident t!"byte") (.arg (.bin .or (.bin .and (.bin .shr (.ident t!"v") (.num 14)) (.num 127)) (.num 128)) .none)) (.arg (.call (.ident t!"byte") (.arg (.bin .shr (.ident t!"v") (.num 21)) .none)) .none)))))) .none))
    .skip)
    (.case (.arg (.bin .lt (.ident t!"v") (.bin .shl (.num 1) (.num 35))) .none)
    (.seq (.assign (.arg (.ident t!"b") .none) (.arg (.call (.ident t!"append") (.arg (.ident t!"b") (.arg (.call (.ident t!"byte") (.arg (.bin .or (.bin .and (.bin .shr (.ident t!"v") (.num 0)) (.num 127)) (.num 128)) .none)) (.arg (.call (.ident t!"byte") (.arg (.bin .or (.bin .and (.bin .shr (.ident t!"v") (.num 7)) (.num 127)) (.num 128)) .none)) (.arg (.call (.ident t!"byte") (.arg (.bin .or (.bin .and (.bin .shr (.ident t!"v") (.num 14)) (.num 127)) (.num 128)) .none)) (.arg (.call (.ident t!"byte") (.arg (.bin .or (.bin .and (.bin .shr (.ident t!"v") (.num 21)) (.num 127)) (.num 128)) .none)) (.arg (.call (.ident t!"byte") (.arg (.bin .shr (.ident t!"v") (.num 28)) .none)) .none))))))) .none))
    .skip)
    (.case (.arg (.bin .lt (.ident t!"v") (.bin .shl (.num 1) (.num 42))) .none)
    (.seq (.assign (.arg (.ident t!"b") .none) (.arg (.call (.ident t!"append") (.arg (.ident t!"b") (.arg (.call (.ident t!"byte") (.arg (.bin .or (.bin .and (.bin .shr (.ident t!"v") (.num 0)) (.num 127)) (.num 128)) .none)) (.arg (.call (.ident t!"byte") (.arg (.bin .or (.bin .and (.bin .shr (.ident t!"v") (.num 7)) (.num 127)) (.num 128)) .none)) (.arg (.call (.ident t!"byte") (.arg (.bin .or (.bin .and (.bin .shr (.ident t!"v") (.num 14)) (.num 127)) (.num 128)) .none)) (.arg (.call (.ident t!"byte") (.arg (.bin .or (.bin .and (.bin .shr (.ident t!"v") (.num 21)) (.num 127)) (.num 128)) .none)) (.arg (.call (.ident t!"byte") (.arg (.bin .or (.bin .and (.bin .shr (.ident t!"v") (.num 28)) (.num 127)) (.num 128)) .none)) (.arg (.call (.ident t!"byte") (.arg (.bin .shr (.ident t!"v") (.num 35)) .none)) .none)))))))) .none))
    .skip)
    (.case (.arg (.bin .lt (.ident t!"v") (.bin .shl (.num 1) (.num 49))) .none)
    (.seq (.assign (.arg (.ident t!"b") .none) (.arg (.call (.ident t!"append") (.arg (.ident t!"b") (.arg (.call (.ident t!"byte") (.arg (.bin .or (.bin .and (.bin .shr (.ident t!"v") (.num 0)) (.num 127)) (.num 128)) .none)) (.arg (.call (.ident t!"byte") (.arg (.bin .or (.bin .and (.bin .shr (.ident t!"v") (.num 7)) (.num 127)) (.num 128)) .none)) (.arg (.call (.ident t!"byte") (.arg (.bin .or (.bin .and (.bin .shr (.ident t!"v") (.num 14)) (.num 127)) (.num 128)) .none)) (.arg (.call (.ident t!"byte") (.arg (.bin .or (.bin .and (.bin .shr (.ident t!"v") (.num 21)) (.num 127)) (.num 128)) .none)) (.arg (.call (.ident t!"byte") (.arg (.bin .or (.bin .and (.bin .shr (.ident t!"v") (.num 28)) (.num 127)) (.num 128)) .none)) (.arg (.call (.ident t!"byte") (.arg (.bin .or (.bin .and (.bin .shr (.ident t!"v") (.num 35)) (.num 127)) (.num 128)) .none)) (.arg (.call (.ident t!"byte") (.arg (.bin .shr (.ident t!"v") (.num 42)) .none)) .none))))))))) .none))
    .skip)
    (.case (.arg (.bin .lt (.ident t!"v") (.bin .shl (.num 1) (.num 56))) .none)
    (.seq (.assign (.arg (.ident t!"b") .none) (.arg (.call (.ident t!"append") (.arg (.ident t!"b") (.arg (.call (.ident t!"byte") (.arg (.bin .or (.bin .and (.bin .shr (.ident t!"v") (.num 0)) (.num 127)) (.num 128)) .none)) (.arg (.call (.ident t!"byte") (.arg (.bin .or (.bin .and (.bin .shr (.ident t!"v") (.num 7)) (.num 127)) (.num 128)) .none)) (.arg (.call (.ident t!"byte") (.arg (.bin .or (.bin .and (.bin .shr (.ident t!"v") (.num 14)) (.num 127)) (.num 128)) .none)) (.arg (.call (.ident t!"byte") (.arg (.bin .or (.bin .and (.bin .shr (.ident t!"v") (.num 21)) (.num 127)) (.num 128)) .none)) (.arg (.call (.ident t!"byte") (.arg (.bin .or (.bin .and (.bin .shr (.ident t!"v") (.num 28)) (.num 127)) (.num 128)) .none)) (.arg (.call (.ident t!"byte") (.arg (.bin .or (.bin .and (.bin .shr (.ident t!"v") (.num 35)) (.num 127)) (.num 128)) .none)) (.arg (.call (.ident t!"byte") (.arg (.bin .or (.bin .and (.bin .shr (.ident t!"v") (.num 42)) (.num 127)) (.num 128)) .none)) (.arg (.call (.ident t!"byte") (.arg (.bin .shr (.ident t!"v") (.num 49)) .none)) .none)))))))))) .none))
    .skip)
    (.case (.arg (.bin .lt (.ident t!"v") (.bin .shl (.num 1) (.num 63))) .none)
    (.seq (.assign (.arg (.ident t!"b") .none) (.arg (.call (.ident t!"append") (.arg (.ident t!"b") (.arg (.call (.ident t!"byte") (.arg (.bin .or (.bin .and (.bin .shr (.ident t!"v") (.num 0)) (.num 127)) (.num 128)) .none)) (.arg (.call (.ident t!"byte") (.arg (.bin .or (.bin .and (.bin .shr (.ident t!"v") (.num 7)) (.num 127)) (.num 128)) .none)) (.arg (.call (.ident t!"byte") (.arg (.bin .or (.bin .and (.bin .shr (.ident t!"v") (.num 14)) (.num 127)) (.num 128)) .none)) (.arg (.call (.ident t!"byte") (.arg (.bin .or (.bin .and (.bin .shr (.ident t!"v") (.num 21)) (.num 127)) (.num 128)) .none)) (.arg (.call (.ident t!"byte") (.arg (.bin .or (.bin .and (.bin .shr (.ident t!"v") (.num 28)) (.num 127)) (.num 128)) .none)) (.arg (.call (.ident t!"byte") (.arg (.bin .or (.bin .and (.bin .shr (.ident t!"v") (.num 35)) (.num 127)) (.num 128)) .none)) (.arg (.call (.ident t!"byte") (.arg (.bin .or (.bin .and (.bin .shr (.ident t!"v") (.num 42)) (.num 127)) (.num 128)) .none)) (.arg (.call (.ident t!"byte") (.arg (.bin .or (.bin .and (.bin .shr (.ident t!"v") (.num 49)) (.num 127)) (.num 128)) .none)) (.arg (.call (.ident t!"byte") (.arg (.bin .shr (.ident t!"v") (.num 56)) .none)) .none))))))))))) .none))
    .skip)
    (.default (.seq (.assign (.arg (.ident t!"b") .none) (.arg (.call (.ident t!"append") (.arg (.ident t!"b") (.arg (.call (.ident t!"byte") (.arg (.bin .or (.bin .and (.bin .shr (.ident t!"v") (.num 0)) (.num 127)) (.num 128)) .none)) (.arg (.call (.ident t!"byte") (.arg (.bin .or (.bin .and (.bin .shr (.ident t!"v") (.num 7)) (.num 127)) (.num 128)) .none)) (.arg (.call (.ident t!"byte") (.arg (.bin .or (.bin .and (.bin .shr (.ident t!"v") (.num 14)) (.num 127)) (.num 128)) .none)) (.arg (.call (.ident t!"byte") (.arg (.bin .or (.bin .and (.bin .shr (.ident t!"v") (.num 21)) (.num 127)) (.num 128)) .none)) (.arg (.call (.ident t!"byte") (.arg (.bin .or (.bin .and (.bin .shr (.ident t!"v") (.num 28)) (.num 127)) (.num 128)) .none)) (.arg (.call (.ident t!"byte") (.arg (.bin .or (.bin .and (.bin .shr (.ident t!"v") (.num 35)) (.num 127)) (.num 128)) .none)) (.arg (.call (.ident t!"byte") (.arg (.bin .or (.bin .and (.bin .shr (.ident t!"v") (.num 42)) (.num 127)) (.num 128)) .none)) (.arg (.call (.ident t!"byte") (.arg (.bin .or (.bin .and (.bin .shr (.ident t!"v") (.num 49)) (.num 127)) (.num 128)) .none)) (.arg (.call (.ident t!"byte") (.arg (.bin .or (.bin .and (.bin .shr (.ident t!"v") (.num 56)) (.num 127)) (.num 128)) .none)) (.arg (.num 1) .none)))))))))))) .none))
    .skip) .skip)))))))))))
    (.seq (.ret (.arg (.ident t!"b") .none))
    .skip))

/-- encode.go:93-95 -/
def encode_appendVarintZigZag : FuncDecl where
  recv := none
  name := t!"appendVarintZigZag"
  params := [(t!"b", (.un .sliceOf (.ident t!"byte"))), (t!"v", (.ident t!"int64"))]
  results := [(t!"", (.un .sliceOf (.ident t!"byte")))]
  body :=
    (.seq (.ret (.arg (.call (.ident t!"appendVarint") (.arg (.ident t!"b") (.arg (.call (.ident t!"encodeZigZag64") (.arg (.ident t!"v") .none)) .none))) .none))
    .skip)

/-- encode.go:97-103 -/
def encode_encodeLE32 : FuncDecl where
  recv := none
  name := t!"encodeLE32"
  params := [(t!"b", (.un .sliceOf (.ident t!"byte"))), (t!"v", (.ident t!"uint32"))]
  results := [(t!"", (.un .sliceOf (.ident t!"byte")))]
  body :=
    (.seq (.ret (.arg (.call (.ident t!"append") (.arg (.ident t!"b") (.arg (.call (.ident t!"byte") (.arg (.bin .shr (.ident t!"v") (.num 0)) .none)) (.arg (.call (.ident t!"byte") (.arg (.bin .shr (.ident t!"v") (.num 8)) .none)) (.arg (.call (.ident t!"byte") (.arg (.bin .shr (.ident t!"v") (.num 16)) .none)) (.arg (.call (.ident t!"byte") (.arg (.bin .shr (.ident t!"v") (.num 24)) .none)) .none)))))) .none))
    .skip)

/-- encode.go:105-115 -/
def encode_encodeLE64 : FuncDecl where
  recv := none
  name := t!"encodeLE64"
  params := [(t!"b", (.un .sliceOf (.ident t!"byte"))), (t!"v", (.ident t!"uint64"))]
  results := [(t!"", (.un .sliceOf (.ident t!"byte")))]
  body :=
    (.seq (.ret (.arg (.call (.ident t!"append") (.arg (.ident t!"b") (.arg (.call (.ident t!"byte") (.arg (.bin .shr (.ident t!"v") (.num 0)) .none)) (.arg (.call (.ident t!"byte") (.arg (.bin .shr (.ident t!"v") (.num 8)) .none)) (.arg (.call (.ident t!"byte") (.arg (.bin .shr (.ident t!"v") (.num 16)) .none)) (.arg (.call (.ident t!"byte") (.arg (.bin .shr (.ident t!"v") (.num 24)) .none)) (.arg (.call (.ident t!"byte") (.arg (.bin .shr (.ident t!"v") (.num 32)) .none)) (.arg (.call (.ident t!"byte") (.arg (.bin .shr (.ident t!"v") (.num 40)) .none)) (.arg (.call (.ident t!"byte") (.arg (.bin .shr (.ident t!"v") (.num 48)) .none)) (.arg (.call (.ident t!"byte") (.arg (.bin .shr (.ident t!"v") (.num 56)) .none)) .none)))))))))) .none))
    .skip)

/-- encode.go:117-119 -/
def encode_appendTag : FuncDecl where
  recv := none
  name := t!"appendTag"
  params := [(t!"b", (.un .sliceOf (.ident t!"byte"))), (t!"f", (.ident t!"fieldNumber")), (t!"t", (.ident t!"wireType"))]
  results := [(t!"", (.un .sliceOf (.ident t!"byte")))]
  body :=
    (.seq (.ret (.arg (.call (.ident t!"appendVarint") (.arg (.ident t!"b") (.arg (.bin .or (.bin .shl (.call (.ident t!"uint64") (.arg (.ident t!"f") .none)) (.num 3)) (.call (.ident t!"uint64") (.arg (.ident t!"t") .none))) .none))) .none))
    .skip)

/-- The declarations in `encodeGo`. -/
def encode_decls : List Decl := [
  .other t!"package" [.word t!"proto"],
  .imports [t!"unsafe"],
  .func encode_encodeZigZag64,
  .other t!"type" [.word t!"encodeFunc", .op t!"=", .word t!"func", .op t!"(", .op t!"[", .op t!"]", .word t!"byte", .op t!",", .word t!"unsafe", .op t!".", .word t!"Pointer", .op t!",", .op t!"*", .word t!"structField", .op t!")", .op t!"[", .op t!"]", .word t!"byte"],
  .func encode_appendVarint,
  .func encode_appendVarintZigZag,
  .func encode_encodeLE32,
  .func encode_encodeLE64,
  .func encode_appendTag]

/-- decode.go:10-12 -/
def decode_decodeZigZag64 : FuncDecl where
  recv := none
  name := t!"decodeZigZag64"
  params := [(t!"v", (.ident t!"uint64"))]
  results := [(t!"", (.ident t!"int64"))]
  body :=
    (.seq (.ret (.arg (.bin .xor (.call (.ident t!"int64") (.arg (.bin .shr (.ident t!"v") (.num 1)) .none)) (.un .neg (.bin .and (.call (.ident t!"int64") (.arg (.ident t!"v") .none)) (.num 1)))) .none))
    .skip)

/-- decode.go:18-42 -/
def decode_decodeVarint : FuncDecl where
  recv := none
  name := t!"decodeVarint"
  params := [(t!"b", (.un .sliceOf (.ident t!"byte")))]
  results := [(t!"", (.ident t!"uint64")), (t!"", (.ident t!"int")), (t!"", (.ident t!"error"))]
  body :=
    (.seq (.ite .skip (.bin .land (.bin .ne (.call (.ident t!"len") (.arg (.ident t!"b") .none)) (.num 0)) (.bin .lt (.index (.ident t!"b") (.num 0)) (.num 128)))
    (.seq (.ret (.arg (.call (.ident t!"uint64") (.arg (.index (.ident t!"b") (.num 0)) .none)) (.arg (.num 1) (.arg (.ident t!"nil") .none))))
    .skip)
    .skip)
    (.seq (.var t!"x" (.ident t!"uint64"))
    (.seq (.var t!"s" (.ident t!"uint"))
    (.seq (.range t!"i" t!"c" (.ident t!"b")
    (.seq (.ite .skip (.bin .lt (.ident t!"c") (.num 128))
    (.seq (.ite .skip (.bin .lor (.bin .gt (.ident t!"i") (.num 9)) (.bin .land (.bin .eq (.ident t!"i") (.num 9)) (.bin .gt (.ident t!"c") (.num 1))))
    (.seq (.ret (.arg (.num 0) (.arg (.ident t!"i") (.arg (.ident t!"errVarintOverflow") .none))))
    .skip)
    .skip)
    (.seq (.ret (.arg (.bin .or (.ident t!"x") (.bin .shl (.call (.ident t!"uint64") (.arg (.ident t!"c") .none)) (.ident t!"s"))) (.arg (.bin .add (.ident t!"i") (.num 1)) (.arg (.ident t!"nil") .none))))
    .skip))
    .skip)
    (.seq (.opAssign .or (.ident t!"x") (.bin .shl (.call (.ident t!"uint64") (.arg (.bin .and (.ident t!"c") (.num 127)) .none)) (.ident t!"s")))
    (.seq (.opAssign .add (.ident t!"s") (.num 7))
    .skip))))
    (.seq (.ret (.arg (.ident t!"x") (.arg (.call (.ident t!"len") (.arg (.ident t!"b") .none)) (.arg (.sel (.ident t!"io") t!"ErrUnexpectedEOF") .none))))
    .skip)))))

/-- decode.go:44-47 -/
def decode_decodeVarintZigZag : FuncDecl where
  recv := none
  name := t!"decodeVarintZigZag"
  params := [(t!"b", (.un .sliceOf (.ident t!"byte")))]
  results := [(t!"", (.ident t!"int64")), (t!"", (.ident t!"int")), (t!"", (.ident t!"error"))]
  body :=
    (.seq (.define (.arg (.ident t!"v") (.arg (.ident t!"n") (.arg (.ident t!"err") .none))) (.call (.ident t!"decodeVarint") (.arg (.ident t!"b") .none)))
    (.seq (.ret (.arg (.call (.ident t!"decodeZigZag64") (.arg (.ident t!"v") .none)) (.arg (.ident t!"n") (.arg (.ident t!"err") .none))))
    .skip))

/-- decode.go:49-54 -/
def decode_decodeLE32 : FuncDecl where
  recv := none
  name := t!"decodeLE32"
  params := [(t!"b", (.un .sliceOf (.ident t!"byte")))]
  results := [(t!"", (.ident t!"uint32")), (t!"", (.ident t!"int")), (t!"", (.ident t!"error"))]
  body :=
    (.seq (.ite .skip (.bin .lt (.call (.ident t!"len") (.arg (.ident t!"b") .none)) (.num 4))
    (.seq (.ret (.arg (.num 0) (.arg (.num 0) (.arg (.sel (.ident t!"io") t!"ErrUnexpectedEOF") .none))))
    .skip)
    .skip)
    (.seq (.ret (.arg (.call (.sel (.sel (.ident t!"binary") t!"LittleEndian") t!"Uint32") (.arg (.ident t!"b") .none)) (.arg (.num 4) (.arg (.ident t!"nil") .none))))
    .skip))

/-- decode.go:56-61 -/
def decode_decodeLE64 : FuncDecl where
  recv := none
  name := t!"decodeLE64"
  params := [(t!"b", (.un .sliceOf (.ident t!"byte")))]
  results := [(t!"", (.ident t!"uint64")), (t!"", (.ident t!"int")), (t!"", (.ident t!"error"))]
  body :=
    (.seq (.ite .skip (.bin .lt (.call (.ident t!"len") (.arg (.ident t!"b") .none)) (.num 8))
    (.seq (.ret (.arg (.num 0) (.arg (.num 0) (.arg (.sel (.ident t!"io") t!"ErrUnexpectedEOF") .none))))
    .skip)
    .skip)
    (.seq (.ret (.arg (.call (.sel (.sel (.ident t!"binary") t!"LittleEndian") t!"Uint64") (.arg (.ident t!"b") .none)) (.arg (.num 8) (.arg (.ident t!"nil") .none))))
    .skip))

/-- decode.go:63-66 -/
def decode_decodeTag : FuncDecl where
  recv := none
  name := t!"decodeTag"
  params := [(t!"b", (.un .sliceOf (.ident t!"byte")))]
  results := [(t!"f", (.ident t!"fieldNumber")), (t!"t", (.ident t!"wireType")), (t!"n", (.ident t!"int")), (t!"err", (.ident t!"error"))]
  body :=
    (.seq (.define (.arg (.ident t!"v") (.arg (.ident t!"n") (.arg (.ident t!"err") .none))) (.call (.ident t!"decodeVarint") (.arg (.ident t!"b") .none)))
    (.seq (.ret (.arg (.call (.ident t!"fieldNumber") (.arg (.bin .shr (.ident t!"v") (.num 3)) .none)) (.arg (.call (.ident t!"wireType") (.arg (.bin .and (.ident t!"v") (.num 7)) .none)) (.arg (.ident t!"n") (.arg (.ident t!"err") .none)))))
    .skip))

/-- decode.go:68-77 -/
def decode_decodeVarlen : FuncDecl where
  recv := none
  name := t!"decodeVarlen"
  params := [(t!"b", (.un .sliceOf (.ident t!"byte")))]
  results := [(t!"", (.un .sliceOf (.ident t!"byte"))), (t!"", (.ident t!"int")), (t!"", (.ident t!"error"))]
  body :=
    (.seq (.define (.arg (.ident t!"v") (.arg (.ident t!"n") (.arg (.ident t!"err") .none))) (.call (.ident t!"decodeVarint") (.arg (.ident t!"b") .none)))
    (.seq (.ite .skip (.bin .ne (.ident t!"err") (.ident t!"nil"))
    (.seq (.ret (.arg (.ident t!"nil") (.arg (.ident t!"n") (.arg (.ident t!"err") .none))))
    .skip)
    .skip)
    (.seq (.ite .skip (.bin .gt (.ident t!"v") (.call (.ident t!"uint64") (.arg (.bin .sub (.call (.ident t!"len") (.arg (.ident t!"b") .none)) (.ident t!"n")) .none)))
    (.seq (.ret (.arg (.ident t!"nil") (.arg (.ident t!"n") (.arg (.sel (.ident t!"io") t!"ErrUnexpectedEOF") .none))))
    .skip)
    .skip)
    (.seq (.ret (.arg (.slice (.ident t!"b") (.ident t!"n") (.bin .add (.ident t!"n") (.call (.ident t!"int") (.arg (.ident t!"v") .none)))) (.arg (.bin .add (.ident t!"n") (.call (.ident t!"int") (.arg (.ident t!"v") .none))) (.arg (.ident t!"nil") .none))))
    .skip))))

/-- The declarations in `decodeGo`. -/
def decode_decls : List Decl := [
  .other t!"package" [.word t!"proto"],
  .imports [t!"encoding/binary", t!"errors", t!"io", t!"unsafe"],
  .func decode_decodeZigZag64,
  .other t!"type" [.word t!"decodeFunc", .op t!"=", .word t!"func", .op t!"(", .op t!"[", .op t!"]", .word t!"byte", .op t!",", .word t!"unsafe", .op t!".", .word t!"Pointer", .op t!")", .op t!"(", .word t!"int", .op t!",", .word t!"error", .op t!")"],
  .var t!"errVarintOverflow" (.call (.sel (.ident t!"errors") t!"New") (.arg (.str t!"varint overflowed 64 bits integer") .none)),
  .func decode_decodeVarint,
  .func decode_decodeVarintZigZag,
  .func decode_decodeLE32,
  .func decode_decodeLE64,
  .func decode_decodeTag,
  .func decode_decodeVarlen]

/-- normal_codec.go:15-20 -/
def normal_sizeOfBool : FuncDecl where
  recv := none
  name := t!"sizeOfBool"
  params := [(t!"p", (.sel (.ident t!"unsafe") t!"Pointer")), (t!"f", (.un .deref (.ident t!"structField")))]
  results := [(t!"", (.ident t!"int"))]
  body :=
    (.seq (.ite .skip (.un .deref (.call (.un .deref (.ident t!"bool")) (.arg (.ident t!"p") .none)))
    (.seq (.ret (.arg (.bin .add (.num 1) (.call (.ident t!"int") (.arg (.sel (.ident t!"f") t!"tagsize") .none))) .none))
    .skip)
    .skip)
    (.seq (.ret (.arg (.num 0) .none))
    .skip))

/-- normal_codec.go:22-32 -/
def normal_encodeBool : FuncDecl where
  recv := none
  name := t!"encodeBool"
  params := [(t!"b", (.un .sliceOf (.ident t!"byte"))), (t!"p", (.sel (.ident t!"unsafe") t!"Pointer")), (t!"f", (.un .deref (.ident t!"structField")))]
  results := [(t!"", (.un .sliceOf (.ident t!"byte")))]
  body :=
    (.seq (.ite .skip (.un .deref (.call (.un .deref (.ident t!"bool")) (.arg (.ident t!"p") .none)))
    (.seq (.assign (.arg (.ident t!"b") .none) (.arg (.call (.ident t!"appendVarint") (.arg (.ident t!"b") (.arg (.sel (.ident t!"f") t!"wiretag") .none))) .none))
    (.seq (.ite .skip (.un .deref (.call (.un .deref (.ident t!"bool")) (.arg (.ident t!"p") .none)))
    (.seq (.assign (.arg (.ident t!"b") .none) (.arg (.call (.ident t!"append") (.arg (.ident t!"b") (.arg (.num 1) .none))) .none))
    .skip)
    (.seq (.assign (.arg (.ident t!"b") .none) (.arg (.call (.ident t!"append") (.arg (.ident t!"b") (.arg (.num 0) .none))) .none))
    .skip))
    .skip))
    .skip)
    (.seq (.ret (.arg (.ident t!"b") .none))
    .skip))

/-- normal_codec.go:34-40 -/
def normal_decodeBool : FuncDecl where
  recv := none
  name := t!"decodeBool"
  params := [(t!"b", (.un .sliceOf (.ident t!"byte"))), (t!"p", (.sel (.ident t!"unsafe") t!"Pointer"))]
  results := [(t!"", (.ident t!"int")), (t!"", (.ident t!"error"))]
  body :=
    (.seq (.ite .skip (.bin .eq (.call (.ident t!"len") (.arg (.ident t!"b") .none)) (.num 0))
    (.seq (.ret (.arg (.num 0) (.arg (.sel (.ident t!"io") t!"ErrUnexpectedEOF") .none)))
    .skip)
    .skip)
    (.seq (.assign (.arg (.un .deref (.call (.un .deref (.ident t!"bool")) (.arg (.ident t!"p") .none))) .none) (.arg (.bin .ne (.index (.ident t!"b") (.num 0)) (.num 0)) .none))
    (.seq (.ret (.arg (.num 1) (.arg (.ident t!"nil") .none)))
    .skip)))

/-- normal_codec.go:48-54 -/
def normal_sizeOfBytes : FuncDecl where
  recv := none
  name := t!"sizeOfBytes"
  params := [(t!"p", (.sel (.ident t!"unsafe") t!"Pointer")), (t!"f", (.un .deref (.ident t!"structField")))]
  results := [(t!"", (.ident t!"int"))]
  body :=
    (.seq (.define (.arg (.ident t!"v") .none) (.un .deref (.call (.un .deref (.un .sliceOf (.ident t!"byte"))) (.arg (.ident t!"p") .none))))
    (.seq (.ite .skip (.bin .ne (.ident t!"v") (.ident t!"nil"))
    (.seq (.ret (.arg (.bin .add (.call (.ident t!"sizeOfVarlen") (.arg (.call (.ident t!"len") (.arg (.ident t!"v") .none)) .none)) (.sel (.ident t!"f") t!"tagsize")) .none))
    .skip)
    .skip)
    (.seq (.ret (.arg (.num 0) .none))
    .skip)))

/-- normal_codec.go:56-64 -/
def normal_encodeBytes : FuncDecl where
  recv := none
  name := t!"encodeBytes"
  params := [(t!"b", (.un .sliceOf (.ident t!"byte"))), (t!"p", (.sel (.ident t!"unsafe") t!"Pointer")), (t!"f", (.un .deref (.ident t!"structField")))]
  results := [(t!"", (.un .sliceOf (.ident t!"byte")))]
  body :=
    (.seq (.define (.arg (.ident t!"v") .none) (.un .deref (.call (.un .deref (.un .sliceOf (.ident t!"byte"))) (.arg (.ident t!"p") .none))))
    (.seq (.ite .skip (.bin .ne (.ident t!"v") (.ident t!"nil"))
    (.seq (.assign (.arg (.ident t!"b") .none) (.arg (.call (.ident t!"appendVarint") (.arg (.ident t!"b") (.arg (.sel (.ident t!"f") t!"wiretag") .none))) .none))
    (.seq (.assign (.arg (.ident t!"b") .none) (.arg (.call (.ident t!"appendVarint") (.arg (.ident t!"b") (.arg (.call (.ident t!"uint64") (.arg (.call (.ident t!"len") (.arg (.ident t!"v") .none)) .none)) .none))) .none))
    (.seq (.assign (.arg (.ident t!"b") .none) (.arg (.call (.ident t!"append") (.arg (.ident t!"b") (.arg (.spread (.ident t!"v")) .none))) .none))
    .skip)))
    .skip)
    (.seq (.ret (.arg (.ident t!"b") .none))
    .skip)))

/-- normal_codec.go:66-74 -/
def normal_decodeBytes : FuncDecl where
  recv := none
  name := t!"decodeBytes"
  params := [(t!"b", (.un .sliceOf (.ident t!"byte"))), (t!"p", (.sel (.ident t!"unsafe") t!"Pointer"))]
  results := [(t!"", (.ident t!"int")), (t!"", (.ident t!"error"))]
  body :=
    (.seq (.define (.arg (.ident t!"v") (.arg (.ident t!"n") (.arg (.ident t!"err") .none))) (.call (.ident t!"decodeVarlen") (.arg (.ident t!"b") .none)))
    (.seq (.define (.arg (.ident t!"pb") .none) (.call (.un .deref (.un .sliceOf (.ident t!"byte"))) (.arg (.ident t!"p") .none)))
    (.seq (.ite .skip (.bin .eq (.un .deref (.ident t!"pb")) (.ident t!"nil"))
    (.seq (.assign (.arg (.un .deref (.ident t!"pb")) .none) (.arg (.call (.ident t!"make") (.arg (.un .sliceOf (.ident t!"byte")) (.arg (.num 0) (.arg (.call (.ident t!"len") (.arg (.ident t!"v") .none)) .none)))) .none))
    .skip)
    .skip)
    (.seq (.assign (.arg (.un .deref (.ident t!"pb")) .none) (.arg (.call (.ident t!"append") (.arg (.slice (.un .deref (.ident t!"pb")) .none (.num 0)) (.arg (.spread (.ident t!"v")) .none))) .none))
    (.seq (.ret (.arg (.ident t!"n") (.arg (.ident t!"err") .none)))
    .skip)))))

/-- normal_codec.go:82-88 -/
def normal_sizeOfString : FuncDecl where
  recv := none
  name := t!"sizeOfString"
  params := [(t!"p", (.sel (.ident t!"unsafe") t!"Pointer")), (t!"f", (.un .deref (.ident t!"structField")))]
  results := [(t!"", (.ident t!"int"))]
  body :=
    (.seq (.define (.arg (.ident t!"v") .none) (.un .deref (.call (.un .deref (.ident t!"string")) (.arg (.ident t!"p") .none))))
    (.seq (.ite .skip (.bin .ne (.ident t!"v") (.str t!""))
    (.seq (.ret (.arg (.bin .add (.call (.ident t!"sizeOfVarlen") (.arg (.call (.ident t!"len") (.arg (.ident t!"v") .none)) .none)) (.sel (.ident t!"f") t!"tagsize")) .none))
    .skip)
    .skip)
    (.seq (.ret (.arg (.num 0) .none))
    .skip)))

/-- normal_codec.go:90-98 -/
def normal_encodeString : FuncDecl where
  recv := none
  name := t!"encodeString"
  params := [(t!"b", (.un .sliceOf (.ident t!"byte"))), (t!"p", (.sel (.ident t!"unsafe") t!"Pointer")), (t!"f", (.un .deref (.ident t!"structField")))]
  results := [(t!"", (.un .sliceOf (.ident t!"byte")))]
  body :=
    (.seq (.define (.arg (.ident t!"v") .none) (.un .deref (.call (.un .deref (.ident t!"string")) (.arg (.ident t!"p") .none))))
    (.seq (.ite .skip (.bin .ne (.ident t!"v") (.str t!""))
    (.seq (.assign (.arg (.ident t!"b") .none) (.arg (.call (.ident t!"appendVarint") (.arg (.ident t!"b") (.arg (.sel (.ident t!"f") t!"wiretag") .none))) .none))
    (.seq (.assign (.arg (.ident t!"b") .none) (.arg (.call (.ident t!"appendVarint") (.arg (.ident t!"b") (.arg (.call (.ident t!"uint64") (.arg (.call (.ident t!"len") (.arg (.ident t!"v") .none)) .none)) .none))) .none))
    (.seq (.assign (.arg (.ident t!"b") .none) (.arg (.call (.ident t!"append") (.arg (.ident t!"b") (.arg (.spread (.ident t!"v")) .none))) .none))
    .skip)))
    .skip)
    (.seq (.ret (.arg (.ident t!"b") .none))
    .skip)))

/-- normal_codec.go:100-108 -/
def normal_decodeString : FuncDecl where
  recv := none
  name := t!"decodeString"
  params := [(t!"b", (.un .sliceOf (.ident t!"byte"))), (t!"p", (.sel (.ident t!"unsafe") t!"Pointer"))]
  results := [(t!"", (.ident t!"int")), (t!"", (.ident t!"error"))]
  body :=
    (.seq (.define (.arg (.ident t!"v") (.arg (.ident t!"n") (.arg (.ident t!"err") .none))) (.call (.ident t!"decodeVarlen") (.arg (.ident t!"b") .none)))
    (.seq (.ite .skip (.bin .eq (.ident t!"n") (.num 0))
    (.seq (.assign (.arg (.un .deref (.call (.un .deref (.ident t!"string")) (.arg (.ident t!"p") .none))) .none) (.arg (.str t!"") .none))
    (.seq (.ret (.arg (.num 0) (.arg (.ident t!"err") .none)))
    .skip))
    .skip)
    (.seq (.assign (.arg (.un .deref (.call (.un .deref (.ident t!"string")) (.arg (.ident t!"p") .none))) .none) (.arg (.call (.ident t!"string") (.arg (.ident t!"v") .none)) .none))
    (.seq (.ret (.arg (.ident t!"n") (.arg (.ident t!"err") .none)))
    .skip))))

/-- normal_codec.go:116-121 -/
def normal_sizeOfFloat32 : FuncDecl where
  recv := none
  name := t!"sizeOfFloat32"
  params := [(t!"p", (.sel (.ident t!"unsafe") t!"Pointer")), (t!"f", (.un .deref (.ident t!"structField")))]
  results := [(t!"", (.ident t!"int"))]
  body :=
    (.seq (.ite .skip (.bin .lor (.bin .ne (.un .deref (.call (.un .deref (.ident t!"float32")) (.arg (.ident t!"p") .none))) (.num 0)) (.call (.sel (.ident t!"math") t!"Signbit") (.arg (.call (.ident t!"float64") (.arg (.un .deref (.call (.un .deref (.ident t!"float32")) (.arg (.ident t!"p") .none))) .none)) .none)))
    (.seq (.ret (.arg (.bin .add (.num 4) (.call (.ident t!"int") (.arg (.sel (.ident t!"f") t!"tagsize") .none))) .none))
    .skip)
    .skip)
    (.seq (.ret (.arg (.num 0) .none))
    .skip))

/-- normal_codec.go:123-129 -/
def normal_encodeFloat32 : FuncDecl where
  recv := none
  name := t!"encodeFloat32"
  params := [(t!"b", (.un .sliceOf (.ident t!"byte"))), (t!"p", (.sel (.ident t!"unsafe") t!"Pointer")), (t!"f", (.un .deref (.ident t!"structField")))]
  results := [(t!"", (.un .sliceOf (.ident t!"byte")))]
  body :=
    (.seq (.ite (.define (.arg (.ident t!"v") .none) (.un .deref (.call (.un .deref (.ident t!"float32")) (.arg (.ident t!"p") .none)))) (.bin .lor (.bin .ne (.ident t!"v") (.num 0)) (.call (.sel (.ident t!"math") t!"Signbit") (.arg (.call (.ident t!"float64") (.arg (.ident t!"v") .none)) .none)))
    (.seq (.assign (.arg (.ident t!"b") .none) (.arg (.call (.ident t!"appendVarint") (.arg (.ident t!"b") (.arg (.sel (.ident t!"f") t!"wiretag") .none))) .none))
    (.seq (.assign (.arg (.ident t!"b") .none) (.arg (.call (.ident t!"encodeLE32") (.arg (.ident t!"b") (.arg (.call (.sel (.ident t!"math") t!"Float32bits") (.arg (.ident t!"v") .none)) .none))) .none))
    .skip))
    .skip)
    (.seq (.ret (.arg (.ident t!"b") .none))
    .skip))

/-- normal_codec.go:131-135 -/
def normal_decodeFloat32 : FuncDecl where
  recv := none
  name := t!"decodeFloat32"
  params := [(t!"b", (.un .sliceOf (.ident t!"byte"))), (t!"p", (.sel (.ident t!"unsafe") t!"Pointer"))]
  results := [(t!"", (.ident t!"int")), (t!"", (.ident t!"error"))]
  body :=
    (.seq (.define (.arg (.ident t!"v") (.arg (.ident t!"n") (.arg (.ident t!"err") .none))) (.call (.ident t!"decodeLE32") (.arg (.ident t!"b") .none)))
    (.seq (.assign (.arg (.un .deref (.call (.un .deref (.ident t!"float32")) (.arg (.ident t!"p") .none))) .none) (.arg (.call (.sel (.ident t!"math") t!"Float32frombits") (.arg (.ident t!"v") .none)) .none))
    (.seq (.ret (.arg (.ident t!"n") (.arg (.ident t!"err") .none)))
    .skip)))

/-- normal_codec.go:143-148 -/
def normal_sizeOfFloat64 : FuncDecl where
  recv := none
  name := t!"sizeOfFloat64"
  params := [(t!"p", (.sel (.ident t!"unsafe") t!"Pointer")), (t!"f", (.un .deref (.ident t!"structField")))]
  results := [(t!"", (.ident t!"int"))]
  body :=
    (.seq (.ite .skip (.bin .lor (.bin .ne (.un .deref (.call (.un .deref (.ident t!"float64")) (.arg (.ident t!"p") .none))) (.num 0)) (.call (.sel (.ident t!"math") t!"Signbit") (.arg (.un .deref (.call (.un .deref (.ident t!"float64")) (.arg (.ident t!"p") .none))) .none)))
    (.seq (.ret (.arg (.bin .add (.num 8) (.call (.ident t!"int") (.arg (.sel (.ident t!"f") t!"tagsize") .none))) .none))
    .skip)
    .skip)
    (.seq (.ret (.arg (.num 0) .none))
    .skip))

/-- normal_codec.go:150-156 -/
def normal_encodeFloat64 : FuncDecl where
  recv := none
  name := t!"encodeFloat64"
  params := [(t!"b", (.un .sliceOf (.ident t!"byte"))), (t!"p", (.sel (.ident t!"unsafe") t!"Pointer")), (t!"f", (.un .deref (.ident t!"structField")))]
  results := [(t!"", (.un .sliceOf (.ident t!"byte")))]
  body :=
    (.seq (.ite (.define (.arg (.ident t!"v") .none) (.un .deref (.call (.un .deref (.ident t!"float64")) (.arg (.ident t!"p") .none)))) (.bin .lor (.bin .ne (.ident t!"v") (.num 0)) (.call (.sel (.ident t!"math") t!"Signbit") (.arg (.ident t!"v") .none)))
    (.seq (.assign (.arg (.ident t!"b") .none) (.arg (.call (.ident t!"appendVarint") (.arg (.ident t!"b") (.arg (.sel (.ident t!"f") t!"wiretag") .none))) .none))
    (.seq (.assign (.arg (.ident t!"b") .none) (.arg (.call (.ident t!"encodeLE64") (.arg (.ident t!"b") (.arg (.call (.sel (.ident t!"math") t!"Float64bits") (.arg (.ident t!"v") .none)) .none))) .none))
    .skip))
    .skip)
    (.seq (.ret (.arg (.ident t!"b") .none))
    .skip))

/-- normal_codec.go:158-162 -/
def normal_decodeFloat64 : FuncDecl where
  recv := none
  name := t!"decodeFloat64"
  params := [(t!"b", (.un .sliceOf (.ident t!"byte"))), (t!"p", (.sel (.ident t!"unsafe") t!"Pointer"))]
  results := [(t!"", (.ident t!"int")), (t!"", (.ident t!"error"))]
  body :=
    (.seq (.define (.arg (.ident t!"v") (.arg (.ident t!"n") (.arg (.ident t!"err") .none))) (.call (.ident t!"decodeLE64") (.arg (.ident t!"b") .none)))
    (.seq (.assign (.arg (.un .deref (.call (.un .deref (.ident t!"float64")) (.arg (.ident t!"p") .none))) .none) (.arg (.call (.sel (.ident t!"math") t!"Float64frombits") (.arg (.ident t!"v") .none)) .none))
    (.seq (.ret (.arg (.ident t!"n") (.arg (.ident t!"err") .none)))
    .skip)))

/-- normal_codec.go:170-176 -/
def normal_sizeOfInt32 : FuncDecl where
  recv := none
  name := t!"sizeOfInt32"
  params := [(t!"p", (.sel (.ident t!"unsafe") t!"Pointer")), (t!"f", (.un .deref (.ident t!"structField")))]
  results := [(t!"", (.ident t!"int"))]
  body :=
    (.seq (.define (.arg (.ident t!"v") .none) (.un .deref (.call (.un .deref (.ident t!"int32")) (.arg (.ident t!"p") .none))))
    (.seq (.ite .skip (.bin .ne (.ident t!"v") (.num 0))
    (.seq (.ret (.arg (.bin .add (.call (.ident t!"sizeOfVarint") (.arg (.call (.ident t!"uint64") (.arg (.ident t!"v") .none)) .none)) (.sel (.ident t!"f") t!"tagsize")) .none))
    .skip)
    .skip)
    (.seq (.ret (.arg (.num 0) .none))
    .skip)))

/-- normal_codec.go:178-185 -/
def normal_encodeInt32 : FuncDecl where
  recv := none
  name := t!"encodeInt32"
  params := [(t!"b", (.un .sliceOf (.ident t!"byte"))), (t!"p", (.sel (.ident t!"unsafe") t!"Pointer")), (t!"f", (.un .deref (.ident t!"structField")))]
  results := [(t!"", (.un .sliceOf (.ident t!"byte")))]
  body :=
    (.seq (.define (.arg (.ident t!"v") .none) (.un .deref (.call (.un .deref (.ident t!"int32")) (.arg (.ident t!"p") .none))))
    (.seq (.ite .skip (.bin .ne (.ident t!"v") (.num 0))
    (.seq (.assign (.arg (.ident t!"b") .none) (.arg (.call (.ident t!"appendVarint") (.arg (.ident t!"b") (.arg (.sel (.ident t!"f") t!"wiretag") .none))) .none))
    (.seq (.assign (.arg (.ident t!"b") .none) (.arg (.call (.ident t!"appendVarint") (.arg (.ident t!"b") (.arg (.call (.ident t!"uint64") (.arg (.ident t!"v") .none)) .none))) .none))
    .skip))
    .skip)
    (.seq (.ret (.arg (.ident t!"b") .none))
    .skip)))

/-- normal_codec.go:187-191 -/
def normal_decodeInt32 : FuncDecl where
  recv := none
  name := t!"decodeInt32"
  params := [(t!"b", (.un .sliceOf (.ident t!"byte"))), (t!"p", (.sel (.ident t!"unsafe") t!"Pointer"))]
  results := [(t!"", (.ident t!"int")), (t!"", (.ident t!"error"))]
  body :=
    (.seq (.define (.arg (.ident t!"u") (.arg (.ident t!"n") (.arg (.ident t!"err") .none))) (.call (.ident t!"decodeVarint") (.arg (.ident t!"b") .none)))
    (.seq (.assign (.arg (.un .deref (.call (.un .deref (.ident t!"int32")) (.arg (.ident t!"p") .none))) .none) (.arg (.call (.ident t!"int32") (.arg (.call (.ident t!"int64") (.arg (.ident t!"u") .none)) .none)) .none))
    (.seq (.ret (.arg (.ident t!"n") (.arg (.ident t!"err") .none)))
    .skip)))

/-- normal_codec.go:199-205 -/
def normal_sizeOfInt64 : FuncDecl where
  recv := none
  name := t!"sizeOfInt64"
  params := [(t!"p", (.sel (.ident t!"unsafe") t!"Pointer")), (t!"f", (.un .deref (.ident t!"structField")))]
  results := [(t!"", (.ident t!"int"))]
  body :=
    (.seq (.define (.arg (.ident t!"v") .none) (.un .deref (.call (.un .deref (.ident t!"int64")) (.arg (.ident t!"p") .none))))
    (.seq (.ite .skip (.bin .ne (.ident t!"v") (.num 0))
    (.seq (.ret (.arg (.bin .add (.call (.ident t!"sizeOfVarint") (.arg (.call (.ident t!"uint64") (.arg (.ident t!"v") .none)) .none)) (.sel (.ident t!"f") t!"tagsize")) .none))
    .skip)
    .skip)
    (.seq (.ret (.arg (.num 0) .none))
    .skip)))

/-- normal_codec.go:207-214 -/
def normal_encodeInt64 : FuncDecl where
  recv := none
  name := t!"encodeInt64"
  params := [(t!"b", (.un .sliceOf (.ident t!"byte"))), (t!"p", (.sel (.ident t!"unsafe") t!"Pointer")), (t!"f", (.un .deref (.ident t!"structField")))]
  results := [(t!"", (.un .sliceOf (.ident t!"byte")))]
  body :=
    (.seq (.define (.arg (.ident t!"v") .none) (.un .deref (.call (.un .deref (.ident t!"int64")) (.arg (.ident t!"p") .none))))
    (.seq (.ite .skip (.bin .ne (.ident t!"v") (.num 0))
    (.seq (.assign (.arg (.ident t!"b") .none) (.arg (.call (.ident t!"appendVarint") (.arg (.ident t!"b") (.arg (.sel (.ident t!"f") t!"wiretag") .none))) .none))
    (.seq (.assign (.arg (.ident t!"b") .none) (.arg (.call (.ident t!"appendVarint") (.arg (.ident t!"b") (.arg (.call (.ident t!"uint64") (.arg (.ident t!"v") .none)) .none))) .none))
    .skip))
    .skip)
    (.seq (.ret (.arg (.ident t!"b") .none))
    .skip)))

/-- normal_codec.go:216-220 -/
def normal_decodeInt64 : FuncDecl where
  recv := none
  name := t!"decodeInt64"
  params := [(t!"b", (.un .sliceOf (.ident t!"byte"))), (t!"p", (.sel (.ident t!"unsafe") t!"Pointer"))]
  results := [(t!"", (.ident t!"int")), (t!"", (.ident t!"error"))]
  body :=
    (.seq (.define (.arg (.ident t!"v") (.arg (.ident t!"n") (.arg (.ident t!"err") .none))) (.call (.ident t!"decodeVarint") (.arg (.ident t!"b") .none)))
    (.seq (.assign (.arg (.un .deref (.call (.un .deref (.ident t!"int64")) (.arg (.ident t!"p") .none))) .none) (.arg (.call (.ident t!"int64") (.arg (.ident t!"v") .none)) .none))
    (.seq (.ret (.arg (.ident t!"n") (.arg (.ident t!"err") .none)))
    .skip)))

/-- normal_codec.go:228-233 -/
def normal_sizeOfUint32 : FuncDecl where
  recv := none
  name := t!"sizeOfUint32"
  params := [(t!"p", (.sel (.ident t!"unsafe") t!"Pointer")), (t!"f", (.un .deref (.ident t!"structField")))]
  results := [(t!"", (.ident t!"int"))]
  body :=
    (.seq (.ite (.define (.arg (.ident t!"v") .none) (.un .deref (.call (.un .deref (.ident t!"uint32")) (.arg (.ident t!"p") .none)))) (.bin .ne (.ident t!"v") (.num 0))
    (.seq (.ret (.arg (.bin .add (.call (.ident t!"sizeOfVarint") (.arg (.call (.ident t!"uint64") (.arg (.ident t!"v") .none)) .none)) (.sel (.ident t!"f") t!"tagsize")) .none))
    .skip)
    .skip)
    (.seq (.ret (.arg (.num 0) .none))
    .skip))

/-- normal_codec.go:235-241 -/
def normal_encodeUint32 : FuncDecl where
  recv := none
  name := t!"encodeUint32"
  params := [(t!"b", (.un .sliceOf (.ident t!"byte"))), (t!"p", (.sel (.ident t!"unsafe") t!"Pointer")), (t!"f", (.un .deref (.ident t!"structField")))]
  results := [(t!"", (.un .sliceOf (.ident t!"byte")))]
  body :=
    (.seq (.ite (.define (.arg (.ident t!"v") .none) (.un .deref (.call (.un .deref (.ident t!"uint32")) (.arg (.ident t!"p") .none)))) (.bin .ne (.ident t!"v") (.num 0))
    (.seq (.assign (.arg (.ident t!"b") .none) (.arg (.call (.ident t!"appendVarint") (.arg (.ident t!"b") (.arg (.sel (.ident t!"f") t!"wiretag") .none))) .none))
    (.seq (.assign (.arg (.ident t!"b") .none) (.arg (.call (.ident t!"appendVarint") (.arg (.ident t!"b") (.arg (.call (.ident t!"uint64") (.arg (.ident t!"v") .none)) .none))) .none))
    .skip))
    .skip)
    (.seq (.ret (.arg (.ident t!"b") .none))
    .skip))

/-- normal_codec.go:243-247 -/
def normal_decodeUint32 : FuncDecl where
  recv := none
  name := t!"decodeUint32"
  params := [(t!"b", (.un .sliceOf (.ident t!"byte"))), (t!"p", (.sel (.ident t!"unsafe") t!"Pointer"))]
  results := [(t!"", (.ident t!"int")), (t!"", (.ident t!"error"))]
  body :=
    (.seq (.define (.arg (.ident t!"v") (.arg (.ident t!"n") (.arg (.ident t!"err") .none))) (.call (.ident t!"decodeVarint") (.arg (.ident t!"b") .none)))
    (.seq (.assign (.arg (.un .deref (.call (.un .deref (.ident t!"uint32")) (.arg (.ident t!"p") .none))) .none) (.arg (.call (.ident t!"uint32") (.arg (.ident t!"v") .none)) .none))
    (.seq (.ret (.arg (.ident t!"n") (.arg (.ident t!"err") .none)))
    .skip)))

/-- normal_codec.go:255-260 -/
def normal_sizeOfFixed32 : FuncDecl where
  recv := none
  name := t!"sizeOfFixed32"
  params := [(t!"p", (.sel (.ident t!"unsafe") t!"Pointer")), (t!"f", (.un .deref (.ident t!"structField")))]
  results := [(t!"", (.ident t!"int"))]
  body :=
    (.seq (.ite .skip (.bin .ne (.un .deref (.call (.un .deref (.ident t!"uint32")) (.arg (.ident t!"p") .none))) (.num 0))
    (.seq (.ret (.arg (.bin .add (.num 4) (.sel (.ident t!"f") t!"tagsize")) .none))
    .skip)
    .skip)
    (.seq (.ret (.arg (.num 0) .none))
    .skip))

/-- normal_codec.go:262-268 -/
def normal_encodeFixed32 : FuncDecl where
  recv := none
  name := t!"encodeFixed32"
  params := [(t!"b", (.un .sliceOf (.ident t!"byte"))), (t!"p", (.sel (.ident t!"unsafe") t!"Pointer")), (t!"f", (.un .deref (.ident t!"structField")))]
  results := [(t!"", (.un .sliceOf (.ident t!"byte")))]
  body :=
    (.seq (.ite (.define (.arg (.ident t!"v") .none) (.un .deref (.call (.un .deref (.ident t!"uint32")) (.arg (.ident t!"p") .none)))) (.bin .ne (.ident t!"v") (.num 0))
    (.seq (.assign (.arg (.ident t!"b") .none) (.arg (.call (.ident t!"appendVarint") (.arg (.ident t!"b") (.arg (.sel (.ident t!"f") t!"wiretag") .none))) .none))
    (.seq (.assign (.arg (.ident t!"b") .none) (.arg (.call (.ident t!"encodeLE32") (.arg (.ident t!"b") (.arg (.ident t!"v") .none))) .none))
    .skip))
    .skip)
    (.seq (.ret (.arg (.ident t!"b") .none))
    .skip))

/-- normal_codec.go:270-274 -/
def normal_decodeFixed32 : FuncDecl where
  recv := none
  name := t!"decodeFixed32"
  params := [(t!"b", (.un .sliceOf (.ident t!"byte"))), (t!"p", (.sel (.ident t!"unsafe") t!"Pointer"))]
  results := [(t!"", (.ident t!"int")), (t!"", (.ident t!"error"))]
  body :=
    (.seq (.define (.arg (.ident t!"v") (.arg (.ident t!"n") (.arg (.ident t!"err") .none))) (.call (.ident t!"decodeLE32") (.arg (.ident t!"b") .none)))
    (.seq (.assign (.arg (.un .deref (.call (.un .deref (.ident t!"uint32")) (.arg (.ident t!"p") .none))) .none) (.arg (.ident t!"v") .none))
    (.seq (.ret (.arg (.ident t!"n") (.arg (.ident t!"err") .none)))
    .skip)))

/-- normal_codec.go:282-287 -/
def normal_sizeOfUint64 : FuncDecl where
  recv := none
  name := t!"sizeOfUint64"
  params := [(t!"p", (.sel (.ident t!"unsafe") t!"Pointer")), (t!"f", (.un .deref (.ident t!"structField")))]
  results := [(t!"", (.ident t!"int"))]
  body :=
    (.seq (.ite (.define (.arg (.ident t!"v") .none) (.un .deref (.call (.un .deref (.ident t!"uint64")) (.arg (.ident t!"p") .none)))) (.bin .ne (.ident t!"v") (.num 0))
    (.seq (.ret (.arg (.bin .add (.call (.ident t!"sizeOfVarint") (.arg (.ident t!"v") .none)) (.sel (.ident t!"f") t!"tagsize")) .none))
    .skip)
    .skip)
    (.seq (.ret (.arg (.num 0) .none))
    .skip))

/-- normal_codec.go:289-295 -/
def normal_encodeUint64 : FuncDecl where
  recv := none
  name := t!"encodeUint64"
  params := [(t!"b", (.un .sliceOf (.ident t!"byte"))), (t!"p", (.sel (.ident t!"unsafe") t!"Pointer")), (t!"f", (.un .deref (.ident t!"structField")))]
  results := [(t!"", (.un .sliceOf (.ident t!"byte")))]
  body :=
    (.seq (.ite (.define (.arg (.ident t!"v") .none) (.un .deref (.call (.un .deref (.ident t!"uint64")) (.arg (.ident t!"p") .none)))) (.bin .ne (.ident t!"v") (.num 0))
    (.seq (.assign (.arg (.ident t!"b") .none) (.arg (.call (.ident t!"appendVarint") (.arg (.ident t!"b") (.arg (.sel (.ident t!"f") t!"wiretag") .none))) .none))
    (.seq (.assign (.arg (.ident t!"b") .none) (.arg (.call (.ident t!"appendVarint") (.arg (.ident t!"b") (.arg (.ident t!"v") .none))) .none))
    .skip))
    .skip)
    (.seq (.ret (.arg (.ident t!"b") .none))
    .skip))

/-- normal_codec.go:297-301 -/
def normal_decodeUint64 : FuncDecl where
  recv := none
  name := t!"decodeUint64"
  params := [(t!"b", (.un .sliceOf (.ident t!"byte"))), (t!"p", (.sel (.ident t!"unsafe") t!"Pointer"))]
  results := [(t!"", (.ident t!"int")), (t!"", (.ident t!"error"))]
  body :=
    (.seq (.define (.arg (.ident t!"v") (.arg (.ident t!"n") (.arg (.ident t!"err") .none))) (.call (.ident t!"decodeVarint") (.arg (.ident t!"b") .none)))
    (.seq (.assign (.arg (.un .deref (.call (.un .deref (.ident t!"uint64")) (.arg (.ident t!"p") .none))) .none) (.arg (.ident t!"v") .none))
    (.seq (.ret (.arg (.ident t!"n") (.arg (.ident t!"err") .none)))
    .skip)))

/-- normal_codec.go:309-314 -/
def normal_sizeOfFixed64 : FuncDecl where
  recv := none
  name := t!"sizeOfFixed64"
  params := [(t!"p", (.sel (.ident t!"unsafe") t!"Pointer")), (t!"f", (.un .deref (.ident t!"structField")))]
  results := [(t!"", (.ident t!"int"))]
  body :=
    (.seq (.ite .skip (.bin .ne (.un .deref (.call (.un .deref (.ident t!"uint64")) (.arg (.ident t!"p") .none))) (.num 0))
    (.seq (.ret (.arg (.bin .add (.num 8) (.sel (.ident t!"f") t!"tagsize")) .none))
    .skip)
    .skip)
    (.seq (.ret (.arg (.num 0) .none))
    .skip))

/-- normal_codec.go:316-322 -/
def normal_encodeFixed64 : FuncDecl where
  recv := none
  name := t!"encodeFixed64"
  params := [(t!"b", (.un .sliceOf (.ident t!"byte"))), (t!"p", (.sel (.ident t!"unsafe") t!"Pointer")), (t!"f", (.un .deref (.ident t!"structField")))]
  results := [(t!"", (.un .sliceOf (.ident t!"byte")))]
  body :=
    (.seq (.ite (.define (.arg (.ident t!"v") .none) (.un .deref (.call (.un .deref (.ident t!"uint64")) (.arg (.ident t!"p") .none)))) (.bin .ne (.ident t!"v") (.num 0))
    (.seq (.assign (.arg (.ident t!"b") .none) (.arg (.call (.ident t!"appendVarint") (.arg (.ident t!"b") (.arg (.sel (.ident t!"f") t!"wiretag") .none))) .none))
    (.seq (.assign (.arg (.ident t!"b") .none) (.arg (.call (.ident t!"encodeLE64") (.arg (.ident t!"b") (.arg (.ident t!"v") .none))) .none))
    .skip))
    .skip)
    (.seq (.ret (.arg (.ident t!"b") .none))
    .skip))

/-- normal_codec.go:324-328 -/
def normal_decodeFixed64 : FuncDecl where
  recv := none
  name := t!"decodeFixed64"
  params := [(t!"b", (.un .sliceOf (.ident t!"byte"))), (t!"p", (.sel (.ident t!"unsafe") t!"Pointer"))]
  results := [(t!"", (.ident t!"int")), (t!"", (.ident t!"error"))]
  body :=
    (.seq (.define (.arg (.ident t!"v") (.arg (.ident t!"n") (.arg (.ident t!"err") .none))) (.call (.ident t!"decodeLE64") (.arg (.ident t!"b") .none)))
    (.seq (.assign (.arg (.un .deref (.call (.un .deref (.ident t!"uint64")) (.arg (.ident t!"p") .none))) .none) (.arg (.ident t!"v") .none))
    (.seq (.ret (.arg (.ident t!"n") (.arg (.ident t!"err") .none)))
    .skip)))

/-- normal_codec.go:336-341 -/
def normal_sizeOfZigzag32 : FuncDecl where
  recv := none
  name := t!"sizeOfZigzag32"
  params := [(t!"p", (.sel (.ident t!"unsafe") t!"Pointer")), (t!"f", (.un .deref (.ident t!"structField")))]
  results := [(t!"", (.ident t!"int"))]
  body :=
    (.seq (.ite (.define (.arg (.ident t!"v") .none) (.un .deref (.call (.un .deref (.ident t!"int32")) (.arg (.ident t!"p") .none)))) (.bin .ne (.ident t!"v") (.num 0))
    (.seq (.ret (.arg (.bin .add (.call (.ident t!"sizeOfVarint") (.arg (.call (.ident t!"encodeZigZag64") (.arg (.call (.ident t!"int64") (.arg (.ident t!"v") .none)) .none)) .none)) (.sel (.ident t!"f") t!"tagsize")) .none))
    .skip)
    .skip)
    (.seq (.ret (.arg (.num 0) .none))
    .skip))

/-- normal_codec.go:343-349 -/
def normal_encodeZigzag32 : FuncDecl where
  recv := none
  name := t!"encodeZigzag32"
  params := [(t!"b", (.un .sliceOf (.ident t!"byte"))), (t!"p", (.sel (.ident t!"unsafe") t!"Pointer")), (t!"f", (.un .deref (.ident t!"structField")))]
  results := [(t!"", (.un .sliceOf (.ident t!"byte")))]
  body :=
    (.seq (.ite (.define (.arg (.ident t!"v") .none) (.un .deref (.call (.un .deref (.ident t!"int32")) (.arg (.ident t!"p") .none)))) (.bin .ne (.ident t!"v") (.num 0))
    (.seq (.assign (.arg (.ident t!"b") .none) (.arg (.call (.ident t!"appendVarint") (.arg (.ident t!"b") (.arg (.sel (.ident t!"f") t!"wiretag") .none))) .none))
    (.seq (.assign (.arg (.ident t!"b") .none) (.arg (.call (.ident t!"appendVarint") (.arg (.ident t!"b") (.arg (.call (.ident t!"encodeZigZag64") (.arg (.call (.ident t!"int64") (.arg (.ident t!"v") .none)) .none)) .none))) .none))
    .skip))
    .skip)
    (.seq (.ret (.arg (.ident t!"b") .none))
    .skip))

/-- normal_codec.go:351-355 -/
def normal_decodeZigzag32 : FuncDecl where
  recv := none
  name := t!"decodeZigzag32"
  params := [(t!"b", (.un .sliceOf (.ident t!"byte"))), (t!"p", (.sel (.ident t!"unsafe") t!"Pointer"))]
  results := [(t!"", (.ident t!"int")), (t!"", (.ident t!"error"))]
  body :=
    (.seq (.define (.arg (.ident t!"u") (.arg (.ident t!"n") (.arg (.ident t!"err") .none))) (.call (.ident t!"decodeVarint") (.arg (.ident t!"b") .none)))
    (.seq (.assign (.arg (.un .deref (.call (.un .deref (.ident t!"int32")) (.arg (.ident t!"p") .none))) .none) (.arg (.call (.ident t!"int32") (.arg (.call (.ident t!"decodeZigZag64") (.arg (.ident t!"u") .none)) .none)) .none))
    (.seq (.ret (.arg (.ident t!"n") (.arg (.ident t!"err") .none)))
    .skip)))

/-- normal_codec.go:363-368 -/
def normal_sizeOfZigzag64 : FuncDecl where
  recv := none
  name := t!"sizeOfZigzag64"
  params := [(t!"p", (.sel (.ident t!"unsafe") t!"Pointer")), (t!"f", (.un .deref (.ident t!"structField")))]
  results := [(t!"", (.ident t!"int"))]
  body :=
    (.seq (.ite (.define (.arg (.ident t!"v") .none) (.un .deref (.call (.un .deref (.ident t!"int64")) (.arg (.ident t!"p") .none)))) (.bin .ne (.ident t!"v") (.num 0))
    (.seq (.ret (.arg (.bin .add (.call (.ident t!"sizeOfVarint") (.arg (.call (.ident t!"encodeZigZag64") (.arg (.ident t!"v") .none)) .none)) (.sel (.ident t!"f") t!"tagsize")) .none))
    .skip)
    .skip)
    (.seq (.ret (.arg (.num 0) .none))
    .skip))

/-- normal_codec.go:370-376 -/
def normal_encodeZigzag64 : FuncDecl where
  recv := none
  name := t!"encodeZigzag64"
  params := [(t!"b", (.un .sliceOf (.ident t!"byte"))), (t!"p", (.sel (.ident t!"unsafe") t!"Pointer")), (t!"f", (.un .deref (.ident t!"structField")))]
  results := [(t!"", (.un .sliceOf (.ident t!"byte")))]
  body :=
    (.seq (.ite (.define (.arg (.ident t!"v") .none) (.un .deref (.call (.un .deref (.ident t!"int64")) (.arg (.ident t!"p") .none)))) (.bin .ne (.ident t!"v") (.num 0))
    (.seq (.assign (.arg (.ident t!"b") .none) (.arg (.call (.ident t!"appendVarint") (.arg (.ident t!"b") (.arg (.sel (.ident t!"f") t!"wiretag") .none))) .none))
    (.seq (.assign (.arg (.ident t!"b") .none) (.arg (.call (.ident t!"appendVarint") (.arg (.ident t!"b") (.arg (.call (.ident t!"encodeZigZag64") (.arg (.ident t!"v") .none)) .none))) .none))
    .skip))
    .skip)
    (.seq (.ret (.arg (.ident t!"b") .none))
    .skip))

/-- normal_codec.go:378-382 -/
def normal_decodeZigzag64 : FuncDecl where
  recv := none
  name := t!"decodeZigzag64"
  params := [(t!"b", (.un .sliceOf (.ident t!"byte"))), (t!"p", (.sel (.ident t!"unsafe") t!"Pointer"))]
  results := [(t!"", (.ident t!"int")), (t!"", (.ident t!"error"))]
  body :=
    (.seq (.define (.arg (.ident t!"v") (.arg (.ident t!"n") (.arg (.ident t!"err") .none))) (.call (.ident t!"decodeVarint") (.arg (.ident t!"b") .none)))
    (.seq (.assign (.arg (.un .deref (.call (.un .deref (.ident t!"int64")) (.arg (.ident t!"p") .none))) .none) (.arg (.call (.ident t!"decodeZigZag64") (.arg (.ident t!"v") .none)) .none))
    (.seq (.ret (.arg (.ident t!"n") (.arg (.ident t!"err") .none)))
    .skip)))

/-- The declarations in `normalCodecGo`. -/
def normal_decls : List Decl := [
  .other t!"package" [.word t!"proto"],
  .imports [t!"io", t!"math", t!"unsafe"],
  .var t!"boolCodec" (.lit (.ident t!"codec") (.arg (.kv (.ident t!"size") (.ident t!"sizeOfBool")) (.arg (.kv (.ident t!"encode") (.ident t!"encodeBool")) (.arg (.kv (.ident t!"decode") (.ident t!"decodeBool")) .none)))),
  .func normal_sizeOfBool,
  .func normal_encodeBool,
  .func normal_decodeBool,
  .var t!"bytesCodec" (.lit (.ident t!"codec") (.arg (.kv (.ident t!"size") (.ident t!"sizeOfBytes")) (.arg (.kv (.ident t!"encode") (.ident t!"encodeBytes")) (.arg (.kv (.ident t!"decode") (.ident t!"decodeBytes")) .none)))),
  .func normal_sizeOfBytes,
  .func normal_encodeBytes,
  .func normal_decodeBytes,
  .var t!"stringCodec" (.lit (.ident t!"codec") (.arg (.kv (.ident t!"size") (.ident t!"sizeOfString")) (.arg (.kv (.ident t!"encode") (.ident t!"encodeString")) (.arg (.kv (.ident t!"decode") (.ident t!"decodeString")) .none)))),
  .func normal_sizeOfString,
  .func normal_encodeString,
  .func normal_decodeString,
  .var t!"float32Codec" (.lit (.ident t!"codec") (.arg (.kv (.ident t!"size") (.ident t!"sizeOfFloat32")) (.arg (.kv (.ident t!"encode") (.ident t!"encodeFloat32")) (.arg (.kv (.ident t!"decode") (.ident t!"decodeFloat32")) .none)))),
  .func normal_sizeOfFloat32,
  .func normal_encodeFloat32,
  .func normal_decodeFloat32,
  .var t!"float64Codec" (.lit (.ident t!"codec") (.arg (.kv (.ident t!"size") (.ident t!"sizeOfFloat64")) (.arg (.kv (.ident t!"encode") (.ident t!"encodeFloat64")) (.arg (.kv (.ident t!"decode") (.ident t!"decodeFloat64")) .none)))),
  .func normal_sizeOfFloat64,
  .func normal_encodeFloat64,
  .func normal_decodeFloat64,
  .var t!"int32Codec" (.lit (.ident t!"codec") (.arg (.kv (.ident t!"size") (.ident t!"sizeOfInt32")) (.arg (.kv (.ident t!"encode") (.ident t!"encodeInt32")) (.arg (.kv (.ident t!"decode") (.ident t!"decodeInt32")) .none)))),
  .func normal_sizeOfInt32,
  .func normal_encodeInt32,
  .func normal_decodeInt32,
  .var t!"int64Codec" (.lit (.ident t!"codec") (.arg (.kv (.ident t!"size") (.ident t!"sizeOfInt64")) (.arg (.kv (.ident t!"encode") (.ident t!"encodeInt64")) (.arg (.kv (.ident t!"decode") (.ident t!"decodeInt64")) .none)))),
  .func normal_sizeOfInt64,
  .func normal_encodeInt64,
  .func normal_decodeInt64,
  .var t!"uint32Codec" (.lit (.ident t!"codec") (.arg (.kv (.ident t!"size") (.ident t!"sizeOfUint32")) (.arg (.kv (.ident t!"encode") (.ident t!"encodeUint32")) (.arg (.kv (.ident t!"decode") (.ident t!"decodeUint32")) .none)))),
  .func normal_sizeOfUint32,
  .func normal_encodeUint32,
  .func normal_decodeUint32,
  .var t!"fixed32Codec" (.lit (.ident t!"codec") (.arg (.kv (.ident t!"size") (.ident t!"sizeOfFixed32")) (.arg (.kv (.ident t!"encode") (.ident t!"encodeFixed32")) (.arg (.kv (.ident t!"decode") (.ident t!"decodeFixed32")) .none)))),
  .func normal_sizeOfFixed32,
  .func normal_encodeFixed32,
  .func normal_decodeFixed32,
  .var t!"uint64Codec" (.lit (.ident t!"codec") (.arg (.kv (.ident t!"size") (.ident t!"sizeOfUint64")) (.arg (.kv (.ident t!"encode") (.ident t!"encodeUint64")) (.arg (.kv (.ident t!"decode") (.ident t!"decodeUint64")) .none)))),
  .func normal_sizeOfUint64,
  .func normal_encodeUint64,
  .func normal_decodeUint64,
  .var t!"fixed64Codec" (.lit (.ident t!"codec") (.arg (.kv (.ident t!"size") (.ident t!"sizeOfFixed64")) (.arg (.kv (.ident t!"encode") (.ident t!"encodeFixed64")) (.arg (.kv (.ident t!"decode") (.ident t!"decodeFixed64")) .none)))),
  .func normal_sizeOfFixed64,
  .func normal_encodeFixed64,
  .func normal_decodeFixed64,
  .var t!"zigzag32Codec" (.lit (.ident t!"codec") (.arg (.kv (.ident t!"size") (.ident t!"sizeOfZigzag32")) (.arg (.kv (.ident t!"encode") (.ident t!"encodeZigzag32")) (.arg (.kv (.ident t!"decode") (.ident t!"decodeZigzag32")) .none)))),
  .func normal_sizeOfZigzag32,
  .func normal_encodeZigzag32,
  .func normal_decodeZigzag32,
  .var t!"zigzag64Codec" (.lit (.ident t!"codec") (.arg (.kv (.ident t!"size") (.ident t!"sizeOfZigzag64")) (.arg (.kv (.ident t!"encode") (.ident t!"encodeZigzag64")) (.arg (.kv (.ident t!"decode") (.ident t!"decodeZigzag64")) .none)))),
  .func normal_sizeOfZigzag64,
  .func normal_encodeZigzag64,
  .func normal_decodeZigzag64]

/-- required_codec.go:12-14 -/
def required_sizeOfBoolRequired : FuncDecl where
  recv := none
  name := t!"sizeOfBoolRequired"
  params := [(t!"p", (.sel (.ident t!"unsafe") t!"Pointer")), (t!"f", (.un .deref (.ident t!"structField")))]
  results := [(t!"", (.ident t!"int"))]
  body :=
    (.seq (.ret (.arg (.bin .add (.num 1) (.call (.ident t!"int") (.arg (.sel (.ident t!"f") t!"tagsize") .none))) .none))
    .skip)

/-- required_codec.go:15-23 -/
def required_encodeBoolRequired : FuncDecl where
  recv := none
  name := t!"encodeBoolRequired"
  params := [(t!"b", (.un .sliceOf (.ident t!"byte"))), (t!"p", (.sel (.ident t!"unsafe") t!"Pointer")), (t!"f", (.un .deref (.ident t!"structField")))]
  results := [(t!"", (.un .sliceOf (.ident t!"byte")))]
  body :=
    (.seq (.assign (.arg (.ident t!"b") .none) (.arg (.call (.ident t!"appendVarint") (.arg (.ident t!"b") (.arg (.sel (.ident t!"f") t!"wiretag") .none))) .none))
    (.seq (.ite .skip (.un .deref (.call (.un .deref (.ident t!"bool")) (.arg (.ident t!"p") .none)))
    (.seq (.assign (.arg (.ident t!"b") .none) (.arg (.call (.ident t!"append") (.arg (.ident t!"b") (.arg (.num 1) .none))) .none))
    .skip)
    (.seq (.assign (.arg (.ident t!"b") .none) (.arg (.call (.ident t!"append") (.arg (.ident t!"b") (.arg (.num 0) .none))) .none))
    .skip))
    (.seq (.ret (.arg (.ident t!"b") .none))
    .skip)))

/-- required_codec.go:27-30 -/
def required_sizeOfStringRequired : FuncDecl where
  recv := none
  name := t!"sizeOfStringRequired"
  params := [(t!"p", (.sel (.ident t!"unsafe") t!"Pointer")), (t!"f", (.un .deref (.ident t!"structField")))]
  results := [(t!"", (.ident t!"int"))]
  body :=
    (.seq (.define (.arg (.ident t!"v") .none) (.un .deref (.call (.un .deref (.ident t!"string")) (.arg (.ident t!"p") .none))))
    (.seq (.ret (.arg (.bin .add (.call (.ident t!"sizeOfVarlen") (.arg (.call (.ident t!"len") (.arg (.ident t!"v") .none)) .none)) (.sel (.ident t!"f") t!"tagsize")) .none))
    .skip))

/-- required_codec.go:31-37 -/
def required_encodeStringRequired : FuncDecl where
  recv := none
  name := t!"encodeStringRequired"
  params := [(t!"b", (.un .sliceOf (.ident t!"byte"))), (t!"p", (.sel (.ident t!"unsafe") t!"Pointer")), (t!"f", (.un .deref (.ident t!"structField")))]
  results := [(t!"", (.un .sliceOf (.ident t!"byte")))]
  body :=
    (.seq (.define (.arg (.ident t!"v") .none) (.un .deref (.call (.un .deref (.ident t!"string")) (.arg (.ident t!"p") .none))))
    (.seq (.assign (.arg (.ident t!"b") .none) (.arg (.call (.ident t!"appendVarint") (.arg (.ident t!"b") (.arg (.sel (.ident t!"f") t!"wiretag") .none))) .none))
    (.seq (.assign (.arg (.ident t!"b") .none) (.arg (.call (.ident t!"appendVarint") (.arg (.ident t!"b") (.arg (.call (.ident t!"uint64") (.arg (.call (.ident t!"len") (.arg (.ident t!"v") .none)) .none)) .none))) .none))
    (.seq (.assign (.arg (.ident t!"b") .none) (.arg (.call (.ident t!"append") (.arg (.ident t!"b") (.arg (.spread (.ident t!"v")) .none))) .none))
    (.seq (.ret (.arg (.ident t!"b") .none))
    .skip)))))

/-- required_codec.go:41-43 -/
def required_sizeOfFloat32Required : FuncDecl where
  recv := none
  name := t!"sizeOfFloat32Required"
  params := [(t!"p", (.sel (.ident t!"unsafe") t!"Pointer")), (t!"f", (.un .deref (.ident t!"structField")))]
  results := [(t!"", (.ident t!"int"))]
  body :=
    (.seq (.ret (.arg (.bin .add (.num 4) (.call (.ident t!"int") (.arg (.sel (.ident t!"f") t!"tagsize") .none))) .none))
    .skip)

/-- required_codec.go:44-49 -/
def required_encodeFloat32Required : FuncDecl where
  recv := none
  name := t!"encodeFloat32Required"
  params := [(t!"b", (.un .sliceOf (.ident t!"byte"))), (t!"p", (.sel (.ident t!"unsafe") t!"Pointer")), (t!"f", (.un .deref (.ident t!"structField")))]
  results := [(t!"", (.un .sliceOf (.ident t!"byte")))]
  body :=
    (.seq (.define (.arg (.ident t!"v") .none) (.un .deref (.call (.un .deref (.ident t!"float32")) (.arg (.ident t!"p") .none))))
    (.seq (.assign (.arg (.ident t!"b") .none) (.arg (.call (.ident t!"appendVarint") (.arg (.ident t!"b") (.arg (.sel (.ident t!"f") t!"wiretag") .none))) .none))
    (.seq (.assign (.arg (.ident t!"b") .none) (.arg (.call (.ident t!"encodeLE32") (.arg (.ident t!"b") (.arg (.call (.sel (.ident t!"math") t!"Float32bits") (.arg (.ident t!"v") .none)) .none))) .none))
    (.seq (.ret (.arg (.ident t!"b") .none))
    .skip))))

/-- required_codec.go:53-55 -/
def required_sizeOfFloat64Required : FuncDecl where
  recv := none
  name := t!"sizeOfFloat64Required"
  params := [(t!"p", (.sel (.ident t!"unsafe") t!"Pointer")), (t!"f", (.un .deref (.ident t!"structField")))]
  results := [(t!"", (.ident t!"int"))]
  body :=
    (.seq (.ret (.arg (.bin .add (.num 8) (.call (.ident t!"int") (.arg (.sel (.ident t!"f") t!"tagsize") .none))) .none))
    .skip)

/-- required_codec.go:56-61 -/
def required_encodeFloat64Required : FuncDecl where
  recv := none
  name := t!"encodeFloat64Required"
  params := [(t!"b", (.un .sliceOf (.ident t!"byte"))), (t!"p", (.sel (.ident t!"unsafe") t!"Pointer")), (t!"f", (.un .deref (.ident t!"structField")))]
  results := [(t!"", (.un .sliceOf (.ident t!"byte")))]
  body :=
    (.seq (.define (.arg (.ident t!"v") .none) (.un .deref (.call (.un .deref (.ident t!"float64")) (.arg (.ident t!"p") .none))))
    (.seq (.assign (.arg (.ident t!"b") .none) (.arg (.call (.ident t!"appendVarint") (.arg (.ident t!"b") (.arg (.sel (.ident t!"f") t!"wiretag") .none))) .none))
    (.seq (.assign (.arg (.ident t!"b") .none) (.arg (.call (.ident t!"encodeLE64") (.arg (.ident t!"b") (.arg (.call (.sel (.ident t!"math") t!"Float64bits") (.arg (.ident t!"v") .none)) .none))) .none))
    (.seq (.ret (.arg (.ident t!"b") .none))
    .skip))))

/-- required_codec.go:65-68 -/
def required_sizeOfInt32Required : FuncDecl where
  recv := none
  name := t!"sizeOfInt32Required"
  params := [(t!"p", (.sel (.ident t!"unsafe") t!"Pointer")), (t!"f", (.un .deref (.ident t!"structField")))]
  results := [(t!"", (.ident t!"int"))]
  body :=
    (.seq (.define (.arg (.ident t!"v") .none) (.un .deref (.call (.un .deref (.ident t!"int32")) (.arg (.ident t!"p") .none))))
    (.seq (.ret (.arg (.bin .add (.call (.ident t!"sizeOfVarint") (.arg (.call (.ident t!"uint64") (.arg (.ident t!"v") .none)) .none)) (.sel (.ident t!"f") t!"tagsize")) .none))
    .skip))

/-- required_codec.go:69-74 -/
def required_encodeInt32Required : FuncDecl where
  recv := none
  name := t!"encodeInt32Required"
  params := [(t!"b", (.un .sliceOf (.ident t!"byte"))), (t!"p", (.sel (.ident t!"unsafe") t!"Pointer")), (t!"f", (.un .deref (.ident t!"structField")))]
  results := [(t!"", (.un .sliceOf (.ident t!"byte")))]
  body :=
    (.seq (.define (.arg (.ident t!"v") .none) (.un .deref (.call (.un .deref (.ident t!"int32")) (.arg (.ident t!"p") .none))))
    (.seq (.assign (.arg (.ident t!"b") .none) (.arg (.call (.ident t!"appendVarint") (.arg (.ident t!"b") (.arg (.sel (.ident t!"f") t!"wiretag") .none))) .none))
    (.seq (.assign (.arg (.ident t!"b") .none) (.arg (.call (.ident t!"appendVarint") (.arg (.ident t!"b") (.arg (.call (.ident t!"uint64") (.arg (.ident t!"v") .none)) .none))) .none))
    (.seq (.ret (.arg (.ident t!"b") .none))
    .skip))))

/-- required_codec.go:78-81 -/
def required_sizeOfInt64Required : FuncDecl where
  recv := none
  name := t!"sizeOfInt64Required"
  params := [(t!"p", (.sel (.ident t!"unsafe") t!"Pointer")), (t!"f", (.un .deref (.ident t!"structField")))]
  results := [(t!"", (.ident t!"int"))]
  body :=
    (.seq (.define (.arg (.ident t!"v") .none) (.un .deref (.call (.un .deref (.ident t!"int64")) (.arg (.ident t!"p") .none))))
    (.seq (.ret (.arg (.bin .add (.call (.ident t!"sizeOfVarint") (.arg (.call (.ident t!"uint64") (.arg (.ident t!"v") .none)) .none)) (.sel (.ident t!"f") t!"tagsize")) .none))
    .skip))

/-- required_codec.go:82-87 -/
def required_encodeInt64Required : FuncDecl where
  recv := none
  name := t!"encodeInt64Required"
  params := [(t!"b", (.un .sliceOf (.ident t!"byte"))), (t!"p", (.sel (.ident t!"unsafe") t!"Pointer")), (t!"f", (.un .deref (.ident t!"structField")))]
  results := [(t!"", (.un .sliceOf (.ident t!"byte")))]
  body :=
    (.seq (.define (.arg (.ident t!"v") .none) (.un .deref (.call (.un .deref (.ident t!"int64")) (.arg (.ident t!"p") .none))))
    (.seq (.assign (.arg (.ident t!"b") .none) (.arg (.call (.ident t!"appendVarint") (.arg (.ident t!"b") (.arg (.sel (.ident t!"f") t!"wiretag") .none))) .none))
    (.seq (.assign (.arg (.ident t!"b") .none) (.arg (.call (.ident t!"appendVarint") (.arg (.ident t!"b") (.arg (.call (.ident t!"uint64") (.arg (.ident t!"v") .none)) .none))) .none))
    (.seq (.ret (.arg (.ident t!"b") .none))
    .skip))))

/-- required_codec.go:91-94 -/
def required_sizeOfUint32Required : FuncDecl where
  recv := none
  name := t!"sizeOfUint32Required"
  params := [(t!"p", (.sel (.ident t!"unsafe") t!"Pointer")), (t!"f", (.un .deref (.ident t!"structField")))]
  results := [(t!"", (.ident t!"int"))]
  body :=
    (.seq (.define (.arg (.ident t!"v") .none) (.un .deref (.call (.un .deref (.ident t!"uint32")) (.arg (.ident t!"p") .none))))
    (.seq (.ret (.arg (.bin .add (.call (.ident t!"sizeOfVarint") (.arg (.call (.ident t!"uint64") (.arg (.ident t!"v") .none)) .none)) (.sel (.ident t!"f") t!"tagsize")) .none))
    .skip))

/-- required_codec.go:95-100 -/
def required_encodeUint32Required : FuncDecl where
  recv := none
  name := t!"encodeUint32Required"
  params := [(t!"b", (.un .sliceOf (.ident t!"byte"))), (t!"p", (.sel (.ident t!"unsafe") t!"Pointer")), (t!"f", (.un .deref (.ident t!"structField")))]
  results := [(t!"", (.un .sliceOf (.ident t!"byte")))]
  body :=
    (.seq (.define (.arg (.ident t!"v") .none) (.un .deref (.call (.un .deref (.ident t!"uint32")) (.arg (.ident t!"p") .none))))
    (.seq (.assign (.arg (.ident t!"b") .none) (.arg (.call (.ident t!"appendVarint") (.arg (.ident t!"b") (.arg (.sel (.ident t!"f") t!"wiretag") .none))) .none))
    (.seq (.assign (.arg (.ident t!"b") .none) (.arg (.call (.ident t!"appendVarint") (.arg (.ident t!"b") (.arg (.call (.ident t!"uint64") (.arg (.ident t!"v") .none)) .none))) .none))
    (.seq (.ret (.arg (.ident t!"b") .none))
    .skip))))

/-- required_codec.go:104-106 -/
def required_sizeOfFixed32Required : FuncDecl where
  recv := none
  name := t!"sizeOfFixed32Required"
  params := [(t!"p", (.sel (.ident t!"unsafe") t!"Pointer")), (t!"f", (.un .deref (.ident t!"structField")))]
  results := [(t!"", (.ident t!"int"))]
  body :=
    (.seq (.ret (.arg (.bin .add (.num 4) (.sel (.ident t!"f") t!"tagsize")) .none))
    .skip)

/-- required_codec.go:107-112 -/
def required_encodeFixed32Required : FuncDecl where
  recv := none
  name := t!"encodeFixed32Required"
  params := [(t!"b", (.un .sliceOf (.ident t!"byte"))), (t!"p", (.sel (.ident t!"unsafe") t!"Pointer")), (t!"f", (.un .deref (.ident t!"structField")))]
  results := [(t!"", (.un .sliceOf (.ident t!"byte")))]
  body :=
    (.seq (.define (.arg (.ident t!"v") .none) (.un .deref (.call (.un .deref (.ident t!"uint32")) (.arg (.ident t!"p") .none))))
    (.seq (.assign (.arg (.ident t!"b") .none) (.arg (.call (.ident t!"appendVarint") (.arg (.ident t!"b") (.arg (.sel (.ident t!"f") t!"wiretag") .none))) .none))
    (.seq (.assign (.arg (.ident t!"b") .none) (.arg (.call (.ident t!"encodeLE32") (.arg (.ident t!"b") (.arg (.ident t!"v") .none))) .none))
    (.seq (.ret (.arg (.ident t!"b") .none))
    .skip))))

/-- required_codec.go:116-119 -/
def required_sizeOfUint64Required : FuncDecl where
  recv := none
  name := t!"sizeOfUint64Required"
  params := [(t!"p", (.sel (.ident t!"unsafe") t!"Pointer")), (t!"f", (.un .deref (.ident t!"structField")))]
  results := [(t!"", (.ident t!"int"))]
  body :=
    (.seq (.define (.arg (.ident t!"v") .none) (.un .deref (.call (.un .deref (.ident t!"uint64")) (.arg (.ident t!"p") .none))))
    (.seq (.ret (.arg (.bin .add (.call (.ident t!"sizeOfVarint") (.arg (.ident t!"v") .none)) (.sel (.ident t!"f") t!"tagsize")) .none))
    .skip))

/-- required_codec.go:120-125 -/
def required_encodeUint64Required : FuncDecl where
  recv := none
  name := t!"encodeUint64Required"
  params := [(t!"b", (.un .sliceOf (.ident t!"byte"))), (t!"p", (.sel (.ident t!"unsafe") t!"Pointer")), (t!"f", (.un .deref (.ident t!"structField")))]
  results := [(t!"", (.un .sliceOf (.ident t!"byte")))]
  body :=
    (.seq (.define (.arg (.ident t!"v") .none) (.un .deref (.call (.un .deref (.ident t!"uint64")) (.arg (.ident t!"p") .none))))
    (.seq (.assign (.arg (.ident t!"b") .none) (.arg (.call (.ident t!"appendVarint") (.arg (.ident t!"b") (.arg (.sel (.ident t!"f") t!"wiretag") .none))) .none))
    (.seq (.assign (.arg (.ident t!"b") .none) (.arg (.call (.ident t!"appendVarint") (.arg (.ident t!"b") (.arg (.ident t!"v") .none))) .none))
    (.seq (.ret (.arg (.ident t!"b") .none))
    .skip))))

/-- required_codec.go:129-131 -/
def required_sizeOfFixed64Required : FuncDecl where
  recv := none
  name := t!"sizeOfFixed64Required"
  params := [(t!"p", (.sel (.ident t!"unsafe") t!"Pointer")), (t!"f", (.un .deref (.ident t!"structField")))]
  results := [(t!"", (.ident t!"int"))]
  body :=
    (.seq (.ret (.arg (.bin .add (.num 8) (.sel (.ident t!"f") t!"tagsize")) .none))
    .skip)

/-- required_codec.go:132-137 -/
def required_encodeFixed64Required : FuncDecl where
  recv := none
  name := t!"encodeFixed64Required"
  params := [(t!"b", (.un .sliceOf (.ident t!"byte"))), (t!"p", (.sel (.ident t!"unsafe") t!"Pointer")), (t!"f", (.un .deref (.ident t!"structField")))]
  results := [(t!"", (.un .sliceOf (.ident t!"byte")))]
  body :=
    (.seq (.define (.arg (.ident t!"v") .none) (.un .deref (.call (.un .deref (.ident t!"uint64")) (.arg (.ident t!"p") .none))))
    (.seq (.assign (.arg (.ident t!"b") .none) (.arg (.call (.ident t!"appendVarint") (.arg (.ident t!"b") (.arg (.sel (.ident t!"f") t!"wiretag") .none))) .none))
    (.seq (.assign (.arg (.ident t!"b") .none) (.arg (.call (.ident t!"encodeLE64") (.arg (.ident t!"b") (.arg (.ident t!"v") .none))) .none))
    (.seq (.ret (.arg (.ident t!"b") .none))
    .skip))))

/-- required_codec.go:141-144 -/
def required_sizeOfZigzag32Required : FuncDecl where
  recv := none
  name := t!"sizeOfZigzag32Required"
  params := [(t!"p", (.sel (.ident t!"unsafe") t!"Pointer")), (t!"f", (.un .deref (.ident t!"structField")))]
  results := [(t!"", (.ident t!"int"))]
  body :=
    (.seq (.define (.arg (.ident t!"v") .none) (.un .deref (.call (.un .deref (.ident t!"int32")) (.arg (.ident t!"p") .none))))
    (.seq (.ret (.arg (.bin .add (.call (.ident t!"sizeOfVarint") (.arg (.call (.ident t!"encodeZigZag64") (.arg (.call (.ident t!"int64") (.arg (.ident t!"v") .none)) .none)) .none)) (.sel (.ident t!"f") t!"tagsize")) .none))
    .skip))

/-- required_codec.go:145-150 -/
def required_encodeZigzag32Required : FuncDecl where
  recv := none
  name := t!"encodeZigzag32Required"
  params := [(t!"b", (.un .sliceOf (.ident t!"byte"))), (t!"p", (.sel (.ident t!"unsafe") t!"Pointer")), (t!"f", (.un .deref (.ident t!"structField")))]
  results := [(t!"", (.un .sliceOf (.ident t!"byte")))]
  body :=
    (.seq (.define (.arg (.ident t!"v") .none) (.un .deref (.call (.un .deref (.ident t!"int32")) (.arg (.ident t!"p") .none))))
    (.seq (.assign (.arg (.ident t!"b") .none) (.arg (.call (.ident t!"appendVarint") (.arg (.ident t!"b") (.arg (.sel (.ident t!"f") t!"wiretag") .none))) .none))
    (.seq (.assign (.arg (.ident t!"b") .none) (.arg (.call (.ident t!"appendVarint") (.arg (.ident t!"b") (.arg (.call (.ident t!"encodeZigZag64") (.arg (.call (.ident t!"int64") (.arg (.ident t!"v") .none)) .none)) .none))) .none))
    (.seq (.ret (.arg (.ident t!"b") .none))
    .skip))))

/-- required_codec.go:154-157 -/
def required_sizeOfZigzag64Required : FuncDecl where
  recv := none
  name := t!"sizeOfZigzag64Required"
  params := [(t!"p", (.sel (.ident t!"unsafe") t!"Pointer")), (t!"f", (.un .deref (.ident t!"structField")))]
  results := [(t!"", (.ident t!"int"))]
  body :=
    (.seq (.define (.arg (.ident t!"v") .none) (.un .deref (.call (.un .deref (.ident t!"int64")) (.arg (.ident t!"p") .none))))
    (.seq (.ret (.arg (.bin .add (.call (.ident t!"sizeOfVarint") (.arg (.call (.ident t!"encodeZigZag64") (.arg (.ident t!"v") .none)) .none)) (.sel (.ident t!"f") t!"tagsize")) .none))
    .skip))

/-- required_codec.go:158-163 -/
def required_encodeZigzag64Required : FuncDecl where
  recv := none
  name := t!"encodeZigzag64Required"
  params := [(t!"b", (.un .sliceOf (.ident t!"byte"))), (t!"p", (.sel (.ident t!"unsafe") t!"Pointer")), (t!"f", (.un .deref (.ident t!"structField")))]
  results := [(t!"", (.un .sliceOf (.ident t!"byte")))]
  body :=
    (.seq (.define (.arg (.ident t!"v") .none) (.un .deref (.call (.un .deref (.ident t!"int64")) (.arg (.ident t!"p") .none))))
    (.seq (.assign (.arg (.ident t!"b") .none) (.arg (.call (.ident t!"appendVarint") (.arg (.ident t!"b") (.arg (.sel (.ident t!"f") t!"wiretag") .none))) .none))
    (.seq (.assign (.arg (.ident t!"b") .none) (.arg (.call (.ident t!"appendVarint") (.arg (.ident t!"b") (.arg (.call (.ident t!"encodeZigZag64") (.arg (.ident t!"v") .none)) .none))) .none))
    (.seq (.ret (.arg (.ident t!"b") .none))
    .skip))))

/-- The declarations in `requiredCodecGo`. -/
def required_decls : List Decl := [
  .other t!"package" [.word t!"proto"],
  .imports [t!"math", t!"unsafe"],
  .var t!"boolRequiredCodec" (.lit (.ident t!"codec") (.arg (.kv (.ident t!"size") (.ident t!"sizeOfBoolRequired")) (.arg (.kv (.ident t!"encode") (.ident t!"encodeBoolRequired")) (.arg (.kv (.ident t!"decode") (.ident t!"decodeBool")) .none)))),
  .func required_sizeOfBoolRequired,
  .func required_encodeBoolRequired,
  .var t!"stringRequiredCodec" (.lit (.ident t!"codec") (.arg (.kv (.ident t!"size") (.ident t!"sizeOfStringRequired")) (.arg (.kv (.ident t!"encode") (.ident t!"encodeStringRequired")) (.arg (.kv (.ident t!"decode") (.ident t!"decodeString")) .none)))),
  .func required_sizeOfStringRequired,
  .func required_encodeStringRequired,
  .var t!"float32RequiredCodec" (.lit (.ident t!"codec") (.arg (.kv (.ident t!"size") (.ident t!"sizeOfFloat32Required")) (.arg (.kv (.ident t!"encode") (.ident t!"encodeFloat32Required")) (.arg (.kv (.ident t!"decode") (.ident t!"decodeFloat32")) .none)))),
  .func required_sizeOfFloat32Required,
  .func required_encodeFloat32Required,
  .var t!"float64RequiredCodec" (.lit (.ident t!"codec") (.arg (.kv (.ident t!"size") (.ident t!"sizeOfFloat64Required")) (.arg (.kv (.ident t!"encode") (.ident t!"encodeFloat64Required")) (.arg (.kv (.ident t!"decode") (.ident t!"decodeFloat64")) .none)))),
  .func required_sizeOfFloat64Required,
  .func required_encodeFloat64Required,
  .var t!"int32RequiredCodec" (.lit (.ident t!"codec") (.arg (.kv (.ident t!"size") (.ident t!"sizeOfInt32Required")) (.arg (.kv (.ident t!"encode") (.ident t!"encodeInt32Required")) (.arg (.kv (.ident t!"decode") (.ident t!"decodeInt32")) .none)))),
  .func required_sizeOfInt32Required,
  .func required_encodeInt32Required,
  .var t!"int64RequiredCodec" (.lit (.ident t!"codec") (.arg (.kv (.ident t!"size") (.ident t!"sizeOfInt64Required")) (.arg (.kv (.ident t!"encode") (.ident t!"encodeInt64Required")) (.arg (.kv (.ident t!"decode") (.ident t!"decodeInt64")) .none)))),
  .func required_sizeOfInt64Required,
  .func required_encodeInt64Required,
  .var t!"uint32RequiredCodec" (.lit (.ident t!"codec") (.arg (.kv (.ident t!"size") (.ident t!"sizeOfUint32Required")) (.arg (.kv (.ident t!"encode") (.ident t!"encodeUint32Required")) (.arg (.kv (.ident t!"decode") (.ident t!"decodeUint32")) .none)))),
  .func required_sizeOfUint32Required,
  .func required_encodeUint32Required,
  .var t!"fixed32RequiredCodec" (.lit (.ident t!"codec") (.arg (.kv (.ident t!"size") (.ident t!"sizeOfFixed32Required")) (.arg (.kv (.ident t!"encode") (.ident t!"encodeFixed32Required")) (.arg (.kv (.ident t!"decode") (.ident t!"decodeFixed32")) .none)))),
  .func required_sizeOfFixed32Required,
  .func required_encodeFixed32Required,
  .var t!"uint64RequiredCodec" (.lit (.ident t!"codec") (.arg (.kv (.ident t!"size") (.ident t!"sizeOfUint64Required")) (.arg (.kv (.ident t!"encode") (.ident t!"encodeUint64Required")) (.arg (.kv (.ident t!"decode") (.ident t!"decodeUint64")) .none)))),
  .func required_sizeOfUint64Required,
  .func required_encodeUint64Required,
  .var t!"fixed64RequiredCodec" (.lit (.ident t!"codec") (.arg (.kv (.ident t!"size") (.ident t!"sizeOfFixed64Required")) (.arg (.kv (.ident t!"encode") (.ident t!"encodeFixed64Required")) (.arg (.kv (.ident t!"decode") (.ident t!"decodeFixed64")) .none)))),
  .func required_sizeOfFixed64Required,
  .func required_encodeFixed64Required,
  .var t!"zigzag32RequiredCodec" (.lit (.ident t!"codec") (.arg (.kv (.ident t!"size") (.ident t!"sizeOfZigzag32Required")) (.arg (.kv (.ident t!"encode") (.ident t!"encodeZigzag32Required")) (.arg (.kv (.ident t!"decode") (.ident t!"decodeZigzag32")) .none)))),
  .func required_sizeOfZigzag32Required,
  .func required_encodeZigzag32Required,
  .var t!"zigzag64RequiredCodec" (.lit (.ident t!"codec") (.arg (.kv (.ident t!"size") (.ident t!"sizeOfZigzag64Required")) (.arg (.kv (.ident t!"encode") (.ident t!"encodeZigzag64Required")) (.arg (.kv (.ident t!"decode") (.ident t!"decodeZigzag64")) .none)))),
  .func required_sizeOfZigzag64Required,
  .func required_encodeZigzag64Required]

/-- option_codec.go:13-19 -/
def option_sizeOfBoolOption : FuncDecl where
  recv := none
  name := t!"sizeOfBoolOption"
  params := [(t!"p", (.sel (.ident t!"unsafe") t!"Pointer")), (t!"f", (.un .deref (.ident t!"structField")))]
  results := [(t!"", (.ident t!"int"))]
  body :=
    (.seq (.define (.arg (.ident t!"o") .none) (.call (.un .deref (.index (.ident t!"Option") (.ident t!"bool"))) (.arg (.ident t!"p") .none)))
    (.seq (.ite .skip (.call (.sel (.ident t!"o") t!"IsSome") .none)
    (.seq (.ret (.arg (.call (.ident t!"sizeOfBoolRequired") (.arg (.call (.sel (.ident t!"o") t!"unsafePointer") .none) (.arg (.ident t!"f") .none))) .none))
    .skip)
    .skip)
    (.seq (.ret (.arg (.num 0) .none))
    .skip)))

/-- option_codec.go:21-27 -/
def option_encodeBoolOption : FuncDecl where
  recv := none
  name := t!"encodeBoolOption"
  params := [(t!"b", (.un .sliceOf (.ident t!"byte"))), (t!"p", (.sel (.ident t!"unsafe") t!"Pointer")), (t!"f", (.un .deref (.ident t!"structField")))]
  results := [(t!"", (.un .sliceOf (.ident t!"byte")))]
  body :=
    (.seq (.define (.arg (.ident t!"o") .none) (.call (.un .deref (.index (.ident t!"Option") (.ident t!"bool"))) (.arg (.ident t!"p") .none)))
    (.seq (.ite .skip (.call (.sel (.ident t!"o") t!"IsSome") .none)
    (.seq (.ret (.arg (.call (.ident t!"encodeBoolRequired") (.arg (.ident t!"b") (.arg (.call (.sel (.ident t!"o") t!"unsafePointer") .none) (.arg (.ident t!"f") .none)))) .none))
    .skip)
    .skip)
    (.seq (.ret (.arg (.ident t!"b") .none))
    .skip)))

/-- option_codec.go:29-33 -/
def option_decodeBoolOption : FuncDecl where
  recv := none
  name := t!"decodeBoolOption"
  params := [(t!"b", (.un .sliceOf (.ident t!"byte"))), (t!"p", (.sel (.ident t!"unsafe") t!"Pointer"))]
  results := [(t!"", (.ident t!"int")), (t!"", (.ident t!"error"))]
  body :=
    (.seq (.define (.arg (.ident t!"v") .none) (.call (.un .deref (.index (.ident t!"Option") (.ident t!"bool"))) (.arg (.ident t!"p") .none)))
    (.seq (.assign (.arg (.sel (.ident t!"v") t!"some") .none) (.arg (.ident t!"true") .none))
    (.seq (.ret (.arg (.call (.ident t!"decodeBool") (.arg (.ident t!"b") (.arg (.call (.sel (.ident t!"v") t!"unsafePointer") .none) .none))) .none))
    .skip)))

/-- option_codec.go:41-47 -/
def option_sizeOfStringOption : FuncDecl where
  recv := none
  name := t!"sizeOfStringOption"
  params := [(t!"p", (.sel (.ident t!"unsafe") t!"Pointer")), (t!"f", (.un .deref (.ident t!"structField")))]
  results := [(t!"", (.ident t!"int"))]
  body :=
    (.seq (.define (.arg (.ident t!"o") .none) (.call (.un .deref (.index (.ident t!"Option") (.ident t!"string"))) (.arg (.ident t!"p") .none)))
    (.seq (.ite .skip (.call (.sel (.ident t!"o") t!"IsSome") .none)
    (.seq (.ret (.arg (.call (.ident t!"sizeOfStringRequired") (.arg (.call (.sel (.ident t!"o") t!"unsafePointer") .none) (.arg (.ident t!"f") .none))) .none))
    .skip)
    .skip)
    (.seq (.ret (.arg (.num 0) .none))
    .skip)))

/-- option_codec.go:49-55 -/
def option_encodeStringOption : FuncDecl where
  recv := none
  name := t!"encodeStringOption"
  params := [(t!"b", (.un .sliceOf (.ident t!"byte"))), (t!"p", (.sel (.ident t!"unsafe") t!"Pointer")), (t!"f", (.un .deref (.ident t!"structField")))]
  results := [(t!"", (.un .sliceOf (.ident t!"byte")))]
  body :=
    (.seq (.define (.arg (.ident t!"o") .none) (.call (.un .deref (.index (.ident t!"Option") (.ident t!"string"))) (.arg (.ident t!"p") .none)))
    (.seq (.ite .skip (.call (.sel (.ident t!"o") t!"IsSome") .none)
    (.seq (.ret (.arg (.call (.ident t!"encodeStringRequired") (.arg (.ident t!"b") (.arg (.call (.sel (.ident t!"o") t!"unsafePointer") .none) (.arg (.ident t!"f") .none)))) .none))
    .skip)
    .skip)
    (.seq (.ret (.arg (.ident t!"b") .none))
    .skip)))

/-- option_codec.go:57-61 -/
def option_decodeStringOption : FuncDecl where
  recv := none
  name := t!"decodeStringOption"
  params := [(t!"b", (.un .sliceOf (.ident t!"byte"))), (t!"p", (.sel (.ident t!"unsafe") t!"Pointer"))]
  results := [(t!"", (.ident t!"int")), (t!"", (.ident t!"error"))]
  body :=
    (.seq (.define (.arg (.ident t!"v") .none) (.call (.un .deref (.index (.ident t!"Option") (.ident t!"string"))) (.arg (.ident t!"p") .none)))
    (.seq (.assign (.arg (.sel (.ident t!"v") t!"some") .none) (.arg (.ident t!"true") .none))
    (.seq (.ret (.arg (.call (.ident t!"decodeString") (.arg (.ident t!"b") (.arg (.call (.sel (.ident t!"v") t!"unsafePointer") .none) .none))) .none))
    .skip)))

/-- option_codec.go:69-75 -/
def option_sizeOfInt32Option : FuncDecl where
  recv := none
  name := t!"sizeOfInt32Option"
  params := [(t!"p", (.sel (.ident t!"unsafe") t!"Pointer")), (t!"f", (.un .deref (.ident t!"structField")))]
  results := [(t!"", (.ident t!"int"))]
  body :=
    (.seq (.define (.arg (.ident t!"o") .none) (.call (.un .deref (.index (.ident t!"Option") (.ident t!"int32"))) (.arg (.ident t!"p") .none)))
    (.seq (.ite .skip (.call (.sel (.ident t!"o") t!"IsSome") .none)
    (.seq (.ret (.arg (.call (.ident t!"sizeOfInt32Required") (.arg (.call (.sel (.ident t!"o") t!"unsafePointer") .none) (.arg (.ident t!"f") .none))) .none))
    .skip)
    .skip)
    (.seq (.ret (.arg (.num 0) .none))
    .skip)))

/-- option_codec.go:77-83 -/
def option_encodeInt32Option : FuncDecl where
  recv := none
  name := t!"encodeInt32Option"
  params := [(t!"b", (.un .sliceOf (.ident t!"byte"))), (t!"p", (.sel (.ident t!"unsafe") t!"Pointer")), (t!"f", (.un .deref (.ident t!"structField")))]
  results := [(t!"", (.un .sliceOf (.ident t!"byte")))]
  body :=
    (.seq (.define (.arg (.ident t!"o") .none) (.call (.un .deref (.index (.ident t!"Option") (.ident t!"int32"))) (.arg (.ident t!"p") .none)))
    (.seq (.ite .skip (.call (.sel (.ident t!"o") t!"IsSome") .none)
    (.seq (.ret (.arg (.call (.ident t!"encodeInt32Required") (.arg (.ident t!"b") (.arg (.call (.sel (.ident t!"o") t!"unsafePointer") .none) (.arg (.ident t!"f") .none)))) .none))
    .skip)
    .skip)
    (.seq (.ret (.arg (.ident t!"b") .none))
    .skip)))

/-- option_codec.go:85-89 -/
def option_decodeInt32Option : FuncDecl where
  recv := none
  name := t!"decodeInt32Option"
  params := [(t!"b", (.un .sliceOf (.ident t!"byte"))), (t!"p", (.sel (.ident t!"unsafe") t!"Pointer"))]
  results := [(t!"", (.ident t!"int")), (t!"", (.ident t!"error"))]
  body :=
    (.seq (.define (.arg (.ident t!"v") .none) (.call (.un .deref (.index (.ident t!"Option") (.ident t!"int32"))) (.arg (.ident t!"p") .none)))
    (.seq (.assign (.arg (.sel (.ident t!"v") t!"some") .none) (.arg (.ident t!"true") .none))
    (.seq (.ret (.arg (.call (.ident t!"decodeInt32") (.arg (.ident t!"b") (.arg (.call (.sel (.ident t!"v") t!"unsafePointer") .none) .none))) .none))
    .skip)))

/-- option_codec.go:97-103 -/
def option_sizeOfUint32Option : FuncDecl where
  recv := none
  name := t!"sizeOfUint32Option"
  params := [(t!"p", (.sel (.ident t!"unsafe") t!"Pointer")), (t!"f", (.un .deref (.ident t!"structField")))]
  results := [(t!"", (.ident t!"int"))]
  body :=
    (.seq (.define (.arg (.ident t!"o") .none) (.call (.un .deref (.index (.ident t!"Option") (.ident t!"uint32"))) (.arg (.ident t!"p") .none)))
    (.seq (.ite .skip (.call (.sel (.ident t!"o") t!"IsSome") .none)
    (.seq (.ret (.arg (.call (.ident t!"sizeOfUint32Required") (.arg (.call (.sel (.ident t!"o") t!"unsafePointer") .none) (.arg (.ident t!"f") .none))) .none))
    .skip)
    .skip)
    (.seq (.ret (.arg (.num 0) .none))
    .skip)))

/-- option_codec.go:105-111 -/
def option_encodeUint32Option : FuncDecl where
  recv := none
  name := t!"encodeUint32Option"
  params := [(t!"b", (.un .sliceOf (.ident t!"byte"))), (t!"p", (.sel (.ident t!"unsafe") t!"Pointer")), (t!"f", (.un .deref (.ident t!"structField")))]
  results := [(t!"", (.un .sliceOf (.ident t!"byte")))]
  body :=
    (.seq (.define (.arg (.ident t!"o") .none) (.call (.un .deref (.index (.ident t!"Option") (.ident t!"uint32"))) (.arg (.ident t!"p") .none)))
    (.seq (.ite .skip (.call (.sel (.ident t!"o") t!"IsSome") .none)
    (.seq (.ret (.arg (.call (.ident t!"encodeUint32Required") (.arg (.ident t!"b") (.arg (.call (.sel (.ident t!"o") t!"unsafePointer") .none) (.arg (.ident t!"f") .none)))) .none))
    .skip)
    .skip)
    (.seq (.ret (.arg (.ident t!"b") .none))
    .skip)))

/-- option_codec.go:113-117 -/
def option_decodeUint32Option : FuncDecl where
  recv := none
  name := t!"decodeUint32Option"
  params := [(t!"b", (.un .sliceOf (.ident t!"byte"))), (t!"p", (.sel (.ident t!"unsafe") t!"Pointer"))]
  results := [(t!"", (.ident t!"int")), (t!"", (.ident t!"error"))]
  body :=
    (.seq (.define (.arg (.ident t!"v") .none) (.call (.un .deref (.index (.ident t!"Option") (.ident t!"uint32"))) (.arg (.ident t!"p") .none)))
    (.seq (.assign (.arg (.sel (.ident t!"v") t!"some") .none) (.arg (.ident t!"true") .none))
    (.seq (.ret (.arg (.call (.ident t!"decodeUint32") (.arg (.ident t!"b") (.arg (.call (.sel (.ident t!"v") t!"unsafePointer") .none) .none))) .none))
    .skip)))

/-- option_codec.go:125-131 -/
def option_sizeOfInt64Option : FuncDecl where
  recv := none
  name := t!"sizeOfInt64Option"
  params := [(t!"p", (.sel (.ident t!"unsafe") t!"Pointer")), (t!"f", (.un .deref (.ident t!"structField")))]
  results := [(t!"", (.ident t!"int"))]
  body :=
    (.seq (.define (.arg (.ident t!"o") .none) (.call (.un .deref (.index (.ident t!"Option") (.ident t!"int64"))) (.arg (.ident t!"p") .none)))
    (.seq (.ite .skip (.call (.sel (.ident t!"o") t!"IsSome") .none)
    (.seq (.ret (.arg (.call (.ident t!"sizeOfInt64Required") (.arg (.call (.sel (.ident t!"o") t!"unsafePointer") .none) (.arg (.ident t!"f") .none))) .none))
    .skip)
    .skip)
    (.seq (.ret (.arg (.num 0) .none))
    .skip)))

/-- option_codec.go:133-139 -/
def option_encodeInt64Option : FuncDecl where
  recv := none
  name := t!"encodeInt64Option"
  params := [(t!"b", (.un .sliceOf (.ident t!"byte"))), (t!"p", (.sel (.ident t!"unsafe") t!"Pointer")), (t!"f", (.un .deref (.ident t!"structField")))]
  results := [(t!"", (.un .sliceOf (.ident t!"byte")))]
  body :=
    (.seq (.define (.arg (.ident t!"o") .none) (.call (.un .deref (.index (.ident t!"Option") (.ident t!"int64"))) (.arg (.ident t!"p") .none)))
    (.seq (.ite .skip (.call (.sel (.ident t!"o") t!"IsSome") .none)
    (.seq (.ret (.arg (.call (.ident t!"encodeInt64Required") (.arg (.ident t!"b") (.arg (.call (.sel (.ident t!"o") t!"unsafePointer") .none) (.arg (.ident t!"f") .none)))) .none))
    .skip)
    .skip)
    (.seq (.ret (.arg (.ident t!"b") .none))
    .skip)))

/-- option_codec.go:141-145 -/
def option_decodeInt64Option : FuncDecl where
  recv := none
  name := t!"decodeInt64Option"
  params := [(t!"b", (.un .sliceOf (.ident t!"byte"))), (t!"p", (.sel (.ident t!"unsafe") t!"Pointer"))]
  results := [(t!"", (.ident t!"int")), (t!"", (.ident t!"error"))]
  body :=
    (.seq (.define (.arg (.ident t!"v") .none) (.call (.un .deref (.index (.ident t!"Option") (.ident t!"int64"))) (.arg (.ident t!"p") .none)))
    (.seq (.assign (.arg (.sel (.ident t!"v") t!"some") .none) (.arg (.ident t!"true") .none))
    (.seq (.ret (.arg (.call (.ident t!"decodeInt64") (.arg (.ident t!"b") (.arg (.call (.sel (.ident t!"v") t!"unsafePointer") .none) .none))) .none))
    .skip)))

/-- option_codec.go:153-159 -/
def option_sizeOfUint64Option : FuncDecl where
  recv := none
  name := t!"sizeOfUint64Option"
  params := [(t!"p", (.sel (.ident t!"unsafe") t!"Pointer")), (t!"f", (.un .deref (.ident t!"structField")))]
  results := [(t!"", (.ident t!"int"))]
  body :=
    (.seq (.define (.arg (.ident t!"o") .none) (.call (.un .deref (.index (.ident t!"Option") (.ident t!"uint64"))) (.arg (.ident t!"p") .none)))
    (.seq (.ite .skip (.call (.sel (.ident t!"o") t!"IsSome") .none)
    (.seq (.ret (.arg (.call (.ident t!"sizeOfUint64Required") (.arg (.call (.sel (.ident t!"o") t!"unsafePointer") .none) (.arg (.ident t!"f") .none))) .none))
    .skip)
    .skip)
    (.seq (.ret (.arg (.num 0) .none))
    .skip)))

/-- option_codec.go:161-167 -/
def option_encodeUint64Option : FuncDecl where
  recv := none
  name := t!"encodeUint64Option"
  params := [(t!"b", (.un .sliceOf (.ident t!"byte"))), (t!"p", (.sel (.ident t!"unsafe") t!"Pointer")), (t!"f", (.un .deref (.ident t!"structField")))]
  results := [(t!"", (.un .sliceOf (.ident t!"byte")))]
  body :=
    (.seq (.define (.arg (.ident t!"o") .none) (.call (.un .deref (.index (.ident t!"Option") (.ident t!"uint64"))) (.arg (.ident t!"p") .none)))
    (.seq (.ite .skip (.call (.sel (.ident t!"o") t!"IsSome") .none)
    (.seq (.ret (.arg (.call (.ident t!"encodeUint64Required") (.arg (.ident t!"b") (.arg (.call (.sel (.ident t!"o") t!"unsafePointer") .none) (.arg (.ident t!"f") .none)))) .none))
    .skip)
    .skip)
    (.seq (.ret (.arg (.ident t!"b") .none))
    .skip)))

/-- option_codec.go:169-173 -/
def option_decodeUint64Option : FuncDecl where
  recv := none
  name := t!"decodeUint64Option"
  params := [(t!"b", (.un .sliceOf (.ident t!"byte"))), (t!"p", (.sel (.ident t!"unsafe") t!"Pointer"))]
  results := [(t!"", (.ident t!"int")), (t!"", (.ident t!"error"))]
  body :=
    (.seq (.define (.arg (.ident t!"v") .none) (.call (.un .deref (.index (.ident t!"Option") (.ident t!"uint64"))) (.arg (.ident t!"p") .none)))
    (.seq (.assign (.arg (.sel (.ident t!"v") t!"some") .none) (.arg (.ident t!"true") .none))
    (.seq (.ret (.arg (.call (.ident t!"decodeUint64") (.arg (.ident t!"b") (.arg (.call (.sel (.ident t!"v") t!"unsafePointer") .none) .none))) .none))
    .skip)))

/-- option_codec.go:181-187 -/
def option_sizeOfZigzag32Option : FuncDecl where
  recv := none
  name := t!"sizeOfZigzag32Option"
  params := [(t!"p", (.sel (.ident t!"unsafe") t!"Pointer")), (t!"f", (.un .deref (.ident t!"structField")))]
  results := [(t!"", (.ident t!"int"))]
  body :=
    (.seq (.define (.arg (.ident t!"o") .none) (.call (.un .deref (.index (.ident t!"Option") (.ident t!"int32"))) (.arg (.ident t!"p") .none)))
    (.seq (.ite .skip (.call (.sel (.ident t!"o") t!"IsSome") .none)
    (.seq (.ret (.arg (.call (.ident t!"sizeOfZigzag32Required") (.arg (.call (.sel (.ident t!"o") t!"unsafePointer") .none) (.arg (.ident t!"f") .none))) .none))
    .skip)
    .skip)
    (.seq (.ret (.arg (.num 0) .none))
    .skip)))

/-- option_codec.go:189-195 -/
def option_encodeZigzag32Option : FuncDecl where
  recv := none
  name := t!"encodeZigzag32Option"
  params := [(t!"b", (.un .sliceOf (.ident t!"byte"))), (t!"p", (.sel (.ident t!"unsafe") t!"Pointer")), (t!"f", (.un .deref (.ident t!"structField")))]
  results := [(t!"", (.un .sliceOf (.ident t!"byte")))]
  body :=
    (.seq (.define (.arg (.ident t!"o") .none) (.call (.un .deref (.index (.ident t!"Option") (.ident t!"int32"))) (.arg (.ident t!"p") .none)))
    (.seq (.ite .skip (.call (.sel (.ident t!"o") t!"IsSome") .none)
    (.seq (.ret (.arg (.call (.ident t!"encodeZigzag32Required") (.arg (.ident t!"b") (.arg (.call (.sel (.ident t!"o") t!"unsafePointer") .none) (.arg (.ident t!"f") .none)))) .none))
    .skip)
    .skip)
    (.seq (.ret (.arg (.ident t!"b") .none))
    .skip)))

/-- option_codec.go:197-201 -/
def option_decodeZigzag32Option : FuncDecl where
  recv := none
  name := t!"decodeZigzag32Option"
  params := [(t!"b", (.un .sliceOf (.ident t!"byte"))), (t!"p", (.sel (.ident t!"unsafe") t!"Pointer"))]
  results := [(t!"", (.ident t!"int")), (t!"", (.ident t!"error"))]
  body :=
    (.seq (.define (.arg (.ident t!"v") .none) (.call (.un .deref (.index (.ident t!"Option") (.ident t!"int32"))) (.arg (.ident t!"p") .none)))
    (.seq (.assign (.arg (.sel (.ident t!"v") t!"some") .none) (.arg (.ident t!"true") .none))
    (.seq (.ret (.arg (.call (.ident t!"decodeZigzag32") (.arg (.ident t!"b") (.arg (.call (.sel (.ident t!"v") t!"unsafePointer") .none) .none))) .none))
    .skip)))

/-- option_codec.go:209-215 -/
def option_sizeOfZigzag64Option : FuncDecl where
  recv := none
  name := t!"sizeOfZigzag64Option"
  params := [(t!"p", (.sel (.ident t!"unsafe") t!"Pointer")), (t!"f", (.un .deref (.ident t!"structField")))]
  results := [(t!"", (.ident t!"int"))]
  body :=
    (.seq (.define (.arg (.ident t!"o") .none) (.call (.un .deref (.index (.ident t!"Option") (.ident t!"int64"))) (.arg (.ident t!"p") .none)))
    (.seq (.ite .skip (.call (.sel (.ident t!"o") t!"IsSome") .none)
    (.seq (.ret (.arg (.call (.ident t!"sizeOfZigzag64Required") (.arg (.call (.sel (.ident t!"o") t!"unsafePointer") .none) (.arg (.ident t!"f") .none))) .none))
    .skip)
    .skip)
    (.seq (.ret (.arg (.num 0) .none))
    .skip)))

/-- option_codec.go:217-223 -/
def option_encodeZigzag64Option : FuncDecl where
  recv := none
  name := t!"encodeZigzag64Option"
  params := [(t!"b", (.un .sliceOf (.ident t!"byte"))), (t!"p", (.sel (.ident t!"unsafe") t!"Pointer")), (t!"f", (.un .deref (.ident t!"structField")))]
  results := [(t!"", (.un .sliceOf (.ident t!"byte")))]
  body :=
    (.seq (.define (.arg (.ident t!"o") .none) (.call (.un .deref (.index (.ident t!"Option") (.ident t!"int64"))) (.arg (.ident t!"p") .none)))
    (.seq (.ite .skip (.call (.sel (.ident t!"o") t!"IsSome") .none)
    (.seq (.ret (.arg (.call (.ident t!"encodeZigzag64Required") (.arg (.ident t!"b") (.arg (.call (.sel (.ident t!"o") t!"unsafePointer") .none) (.arg (.ident t!"f") .none)))) .none))
    .skip)
    .skip)
    (.seq (.ret (.arg (.ident t!"b") .none))
    .skip)))

/-- option_codec.go:225-229 -/
def option_decodeZigzag64Option : FuncDecl where
  recv := none
  name := t!"decodeZigzag64Option"
  params := [(t!"b", (.un .sliceOf (.ident t!"byte"))), (t!"p", (.sel (.ident t!"unsafe") t!"Pointer"))]
  results := [(t!"", (.ident t!"int")), (t!"", (.ident t!"error"))]
  body :=
    (.seq (.define (.arg (.ident t!"v") .none) (.call (.un .deref (.index (.ident t!"Option") (.ident t!"int64"))) (.arg (.ident t!"p") .none)))
    (.seq (.assign (.arg (.sel (.ident t!"v") t!"some") .none) (.arg (.ident t!"true") .none))
    (.seq (.ret (.arg (.call (.ident t!"decodeZigzag64") (.arg (.ident t!"b") (.arg (.call (.sel (.ident t!"v") t!"unsafePointer") .none) .none))) .none))
    .skip)))

/-- option_codec.go:237-243 -/
def option_sizeOfFixed32Option : FuncDecl where
  recv := none
  name := t!"sizeOfFixed32Option"
  params := [(t!"p", (.sel (.ident t!"unsafe") t!"Pointer")), (t!"f", (.un .deref (.ident t!"structField")))]
  results := [(t!"", (.ident t!"int"))]
  body :=
    (.seq (.define (.arg (.ident t!"o") .none) (.call (.un .deref (.index (.ident t!"Option") (.ident t!"uint32"))) (.arg (.ident t!"p") .none)))
    (.seq (.ite .skip (.call (.sel (.ident t!"o") t!"IsSome") .none)
    (.seq (.ret (.arg (.call (.ident t!"sizeOfFixed32Required") (.arg (.call (.sel (.ident t!"o") t!"unsafePointer") .none) (.arg (.ident t!"f") .none))) .none))
    .skip)
    .skip)
    (.seq (.ret (.arg (.num 0) .none))
    .skip)))

/-- option_codec.go:245-251 -/
def option_encodeFixed32Option : FuncDecl where
  recv := none
  name := t!"encodeFixed32Option"
  params := [(t!"b", (.un .sliceOf (.ident t!"byte"))), (t!"p", (.sel (.ident t!"unsafe") t!"Pointer")), (t!"f", (.un .deref (.ident t!"structField")))]
  results := [(t!"", (.un .sliceOf (.ident t!"byte")))]
  body :=
    (.seq (.define (.arg (.ident t!"o") .none) (.call (.un .deref (.index (.ident t!"Option") (.ident t!"uint32"))) (.arg (.ident t!"p") .none)))
    (.seq (.ite .skip (.call (.sel (.ident t!"o") t!"IsSome") .none)
    (.seq (.ret (.arg (.call (.ident t!"encodeFixed32Required") (.arg (.ident t!"b") (.arg (.call (.sel (.ident t!"o") t!"unsafePointer") .none) (.arg (.ident t!"f") .none)))) .none))
    .skip)
    .skip)
    (.seq (.ret (.arg (.ident t!"b") .none))
    .skip)))

/-- option_codec.go:253-257 -/
def option_decodeFixed32Option : FuncDecl where
  recv := none
  name := t!"decodeFixed32Option"
  params := [(t!"b", (.un .sliceOf (.ident t!"byte"))), (t!"p", (.sel (.ident t!"unsafe") t!"Pointer"))]
  results := [(t!"", (.ident t!"int")), (t!"", (.ident t!"error"))]
  body :=
    (.seq (.define (.arg (.ident t!"v") .none) (.call (.un .deref (.index (.ident t!"Option") (.ident t!"uint32"))) (.arg (.ident t!"p") .none)))
    (.seq (.assign (.arg (.sel (.ident t!"v") t!"some") .none) (.arg (.ident t!"true") .none))
    (.seq (.ret (.arg (.call (.ident t!"decodeFixed32") (.arg (.ident t!"b") (.arg (.call (.sel (.ident t!"v") t!"unsafePointer") .none) .none))) .none))
    .skip)))

/-- option_codec.go:265-271 -/
def option_sizeOfFixed64Option : FuncDecl where
  recv := none
  name := t!"sizeOfFixed64Option"
  params := [(t!"p", (.sel (.ident t!"unsafe") t!"Pointer")), (t!"f", (.un .deref (.ident t!"structField")))]
  results := [(t!"", (.ident t!"int"))]
  body :=
    (.seq (.define (.arg (.ident t!"o") .none) (.call (.un .deref (.index (.ident t!"Option") (.ident t!"uint64"))) (.arg (.ident t!"p") .none)))
    (.seq (.ite .skip (.call (.sel (.ident t!"o") t!"IsSome") .none)
    (.seq (.ret (.arg (.call (.ident t!"sizeOfFixed64Required") (.arg (.call (.sel (.ident t!"o") t!"unsafePointer") .none) (.arg (.ident t!"f") .none))) .none))
    .skip)
    .skip)
    (.seq (.ret (.arg (.num 0) .none))
    .skip)))

/-- option_codec.go:273-279 -/
def option_encodeFixed64Option : FuncDecl where
  recv := none
  name := t!"encodeFixed64Option"
  params := [(t!"b", (.un .sliceOf (.ident t!"byte"))), (t!"p", (.sel (.ident t!"unsafe") t!"Pointer")), (t!"f", (.un .deref (.ident t!"structField")))]
  results := [(t!"", (.un .sliceOf (.ident t!"byte")))]
  body :=
    (.seq (.define (.arg (.ident t!"o") .none) (.call (.un .deref (.index (.ident t!"Option") (.ident t!"uint64"))) (.arg (.ident t!"p") .none)))
    (.seq (.ite .skip (.call (.sel (.ident t!"o") t!"IsSome") .none)
    (.seq (.ret (.arg (.call (.ident t!"encodeFixed64Required") (.arg (.ident t!"b") (.arg (.call (.sel (.ident t!"o") t!"unsafePointer") .none) (.arg (.ident t!"f") .none)))) .none))
    .skip)
    .skip)
    (.seq (.ret (.arg (.ident t!"b") .none))
    .skip)))

/-- option_codec.go:281-285 -/
def option_decodeFixed64Option : FuncDecl where
  recv := none
  name := t!"decodeFixed64Option"
  params := [(t!"b", (.un .sliceOf (.ident t!"byte"))), (t!"p", (.sel (.ident t!"unsafe") t!"Pointer"))]
  results := [(t!"", (.ident t!"int")), (t!"", (.ident t!"error"))]
  body :=
    (.seq (.define (.arg (.ident t!"v") .none) (.call (.un .deref (.index (.ident t!"Option") (.ident t!"uint64"))) (.arg (.ident t!"p") .none)))
    (.seq (.assign (.arg (.sel (.ident t!"v") t!"some") .none) (.arg (.ident t!"true") .none))
    (.seq (.ret (.arg (.call (.ident t!"decodeFixed64") (.arg (.ident t!"b") (.arg (.call (.sel (.ident t!"v") t!"unsafePointer") .none) .none))) .none))
    .skip)))

/-- option_codec.go:293-299 -/
def option_sizeOfFloat32Option : FuncDecl where
  recv := none
  name := t!"sizeOfFloat32Option"
  params := [(t!"p", (.sel (.ident t!"unsafe") t!"Pointer")), (t!"f", (.un .deref (.ident t!"structField")))]
  results := [(t!"", (.ident t!"int"))]
  body :=
    (.seq (.define (.arg (.ident t!"o") .none) (.call (.un .deref (.index (.ident t!"Option") (.ident t!"float32"))) (.arg (.ident t!"p") .none)))
    (.seq (.ite .skip (.call (.sel (.ident t!"o") t!"IsSome") .none)
    (.seq (.ret (.arg (.call (.ident t!"sizeOfFloat32Required") (.arg (.call (.sel (.ident t!"o") t!"unsafePointer") .none) (.arg (.ident t!"f") .none))) .none))
    .skip)
    .skip)
    (.seq (.ret (.arg (.num 0) .none))
    .skip)))

/-- option_codec.go:301-307 -/
def option_encodeFloat32Option : FuncDecl where
  recv := none
  name := t!"encodeFloat32Option"
  params := [(t!"b", (.un .sliceOf (.ident t!"byte"))), (t!"p", (.sel (.ident t!"unsafe") t!"Pointer")), (t!"f", (.un .deref (.ident t!"structField")))]
  results := [(t!"", (.un .sliceOf (.ident t!"byte")))]
  body :=
    (.seq (.define (.arg (.ident t!"o") .none) (.call (.un .deref (.index (.ident t!"Option") (.ident t!"float32"))) (.arg (.ident t!"p") .none)))
    (.seq (.ite .skip (.call (.sel (.ident t!"o") t!"IsSome") .none)
    (.seq (.ret (.arg (.call (.ident t!"encodeFloat32Required") (.arg (.ident t!"b") (.arg (.call (.sel (.ident t!"o") t!"unsafePointer") .none) (.arg (.ident t!"f") .none)))) .none))
    .skip)
    .skip)
    (.seq (.ret (.arg (.ident t!"b") .none))
    .skip)))

/-- option_codec.go:309-313 -/
def option_decodeFloat32Option : FuncDecl where
  recv := none
  name := t!"decodeFloat32Option"
  params := [(t!"b", (.un .sliceOf (.ident t!"byte"))), (t!"p", (.sel (.ident t!"unsafe") t!"Pointer"))]
  results := [(t!"", (.ident t!"int")), (t!"", (.ident t!"error"))]
  body :=
    (.seq (.define (.arg (.ident t!"v") .none) (.call (.un .deref (.index (.ident t!"Option") (.ident t!"float32"))) (.arg (.ident t!"p") .none)))
    (.seq (.assign (.arg (.sel (.ident t!"v") t!"some") .none) (.arg (.ident t!"true") .none))
    (.seq (.ret (.arg (.call (.ident t!"decodeFloat32") (.arg (.ident t!"b") (.arg (.call (.sel (.ident t!"v") t!"unsafePointer") .none) .none))) .none))
    .skip)))

/-- option_codec.go:321-327 -/
def option_sizeOfFloat64Option : FuncDecl where
  recv := none
  name := t!"sizeOfFloat64Option"
  params := [(t!"p", (.sel (.ident t!"unsafe") t!"Pointer")), (t!"f", (.un .deref (.ident t!"structField")))]
  results := [(t!"", (.ident t!"int"))]
  body :=
    (.seq (.define (.arg (.ident t!"o") .none) (.call (.un .deref (.index (.ident t!"Option") (.ident t!"float64"))) (.arg (.ident t!"p") .none)))
    (.seq (.ite .skip (.call (.sel (.ident t!"o") t!"IsSome") .none)
    (.seq (.ret (.arg (.call (.ident t!"sizeOfFloat64Required") (.arg (.call (.sel (.ident t!"o") t!"unsafePointer") .none) (.arg (.ident t!"f") .none))) .none))
    .skip)
    .skip)
    (.seq (.ret (.arg (.num 0) .none))
    .skip)))

/-- option_codec.go:329-335 -/
def option_encodeFloat64Option : FuncDecl where
  recv := none
  name := t!"encodeFloat64Option"
  params := [(t!"b", (.un .sliceOf (.ident t!"byte"))), (t!"p", (.sel (.ident t!"unsafe") t!"Pointer")), (t!"f", (.un .deref (.ident t!"structField")))]
  results := [(t!"", (.un .sliceOf (.ident t!"byte")))]
  body :=
    (.seq (.define (.arg (.ident t!"o") .none) (.call (.un .deref (.index (.ident t!"Option") (.ident t!"float64"))) (.arg (.ident t!"p") .none)))
    (.seq (.ite .skip (.call (.sel (.ident t!"o") t!"IsSome") .none)
    (.seq (.ret (.arg (.call (.ident t!"encodeFloat64Required") (.arg (.ident t!"b") (.arg (.call (.sel (.ident t!"o") t!"unsafePointer") .none) (.arg (.ident t!"f") .none)))) .none))
    .skip)
    .skip)
    (.seq (.ret (.arg (.ident t!"b") .none))
    .skip)))

/-- option_codec.go:337-341 -/
def option_decodeFloat64Option : FuncDecl where
  recv := none
  name := t!"decodeFloat64Option"
  params := [(t!"b", (.un .sliceOf (.ident t!"byte"))), (t!"p", (.sel (.ident t!"unsafe") t!"Pointer"))]
  results := [(t!"", (.ident t!"int")), (t!"", (.ident t!"error"))]
  body :=
    (.seq (.define (.arg (.ident t!"v") .none) (.call (.un .deref (.index (.ident t!"Option") (.ident t!"float64"))) (.arg (.ident t!"p") .none)))
    (.seq (.assign (.arg (.sel (.ident t!"v") t!"some") .none) (.arg (.ident t!"true") .none))
    (.seq (.ret (.arg (.call (.ident t!"decodeFloat64") (.arg (.ident t!"b") (.arg (.call (.sel (.ident t!"v") t!"unsafePointer") .none) .none))) .none))
    .skip)))

/-- The declarations in `optionCodecGo`. -/
def option_decls : List Decl := [
  .other t!"package" [.word t!"proto"],
  .imports [t!"unsafe"],
  .var t!"boolOptionCodec" (.lit (.ident t!"codec") (.arg (.kv (.ident t!"size") (.ident t!"sizeOfBoolOption")) (.arg (.kv (.ident t!"encode") (.ident t!"encodeBoolOption")) (.arg (.kv (.ident t!"decode") (.ident t!"decodeBoolOption")) .none)))),
  .func option_sizeOfBoolOption,
  .func option_encodeBoolOption,
  .func option_decodeBoolOption,
  .var t!"stringOptionCodec" (.lit (.ident t!"codec") (.arg (.kv (.ident t!"size") (.ident t!"sizeOfStringOption")) (.arg (.kv (.ident t!"encode") (.ident t!"encodeStringOption")) (.arg (.kv (.ident t!"decode") (.ident t!"decodeStringOption")) .none)))),
  .func option_sizeOfStringOption,
  .func option_encodeStringOption,
  .func option_decodeStringOption,
  .var t!"int32OptionCodec" (.lit (.ident t!"codec") (.arg (.kv (.ident t!"size") (.ident t!"sizeOfInt32Option")) (.arg (.kv (.ident t!"encode") (.ident t!"encodeInt32Option")) (.arg (.kv (.ident t!"decode") (.ident t!"decodeInt32Option")) .none)))),
  .func option_sizeOfInt32Option,
  .func option_encodeInt32Option,
  .func option_decodeInt32Option,
  .var t!"uint32OptionCodec" (.lit (.ident t!"codec") (.arg (.kv (.ident t!"size") (.ident t!"sizeOfUint32Option")) (.arg (.kv (.ident t!"encode") (.ident t!"encodeUint32Option")) (.arg (.kv (.ident t!"decode") (.ident t!"decodeUint32Option")) .none)))),
  .func option_sizeOfUint32Option,
  .func option_encodeUint32Option,
  .func option_decodeUint32Option,
  .var t!"int64OptionCodec" (.lit (.ident t!"codec") (.arg (.kv (.ident t!"size") (.ident t!"sizeOfInt64Option")) (.arg (.kv (.ident t!"encode") (.ident t!"encodeInt64Option")) (.arg (.kv (.ident t!"decode") (.ident t!"decodeInt64Option")) .none)))),
  .func option_sizeOfInt64Option,
  .func option_encodeInt64Option,
  .func option_decodeInt64Option,
  .var t!"uint64OptionCodec" (.lit (.ident t!"codec") (.arg (.kv (.ident t!"size") (.ident t!"sizeOfUint64Option")) (.arg (.kv (.ident t!"encode") (.ident t!"encodeUint64Option")) (.arg (.kv (.ident t!"decode") (.ident t!"decodeUint64Option")) .none)))),
  .func option_sizeOfUint64Option,
  .func option_encodeUint64Option,
  .func option_decodeUint64Option,
  .var t!"zigzag32OptionCodec" (.lit (.ident t!"codec") (.arg (.kv (.ident t!"size") (.ident t!"sizeOfZigzag32Option")) (.arg (.kv (.ident t!"encode") (.ident t!"encodeZigzag32Option")) (.arg (.kv (.ident t!"decode") (.ident t!"decodeZigzag32Option")) .none)))),
  .func option_sizeOfZigzag32Option,
  .func option_encodeZigzag32Option,
  .func option_decodeZigzag32Option,
  .var t!"zigzag64OptionCodec" (.lit (.ident t!"codec") (.arg (.kv (.ident t!"size") (.ident t!"sizeOfZigzag64Option")) (.arg (.kv (.ident t!"encode") (.ident t!"encodeZigzag64Option")) (.arg (.kv (.ident t!"decode") (.ident t!"decodeZigzag64Option")) .none)))),
  .func option_sizeOfZigzag64Option,
  .func option_encodeZigzag64Option,
  .func option_decodeZigzag64Option,
  .var t!"fixed32OptionCodec" (.lit (.ident t!"codec") (.arg (.kv (.ident t!"size") (.ident t!"sizeOfFixed32Option")) (.arg (.kv (.ident t!"encode") (.ident t!"encodeFixed32Option")) (.arg (.kv (.ident t!"decode") (.ident t!"decodeFixed32Option")) .none)))),
  .func option_sizeOfFixed32Option,
  .func option_encodeFixed32Option,
  .func option_decodeFixed32Option,
  .var t!"fixed64OptionCodec" (.lit (.ident t!"codec") (.arg (.kv (.ident t!"size") (.ident t!"sizeOfFixed64Option")) (.arg (.kv (.ident t!"encode") (.ident t!"encodeFixed64Option")) (.arg (.kv (.ident t!"decode") (.ident t!"decodeFixed64Option")) .none)))),
  .func option_sizeOfFixed64Option,
  .func option_encodeFixed64Option,
  .func option_decodeFixed64Option,
  .var t!"float32OptionCodec" (.lit (.ident t!"codec") (.arg (.kv (.ident t!"size") (.ident t!"sizeOfFloat32Option")) (.arg (.kv (.ident t!"encode") (.ident t!"encodeFloat32Option")) (.arg (.kv (.ident t!"decode") (.ident t!"decodeFloat32Option")) .none)))),
  .func option_sizeOfFloat32Option,
  .func option_encodeFloat32Option,
  .func option_decodeFloat32Option,
  .var t!"float64OptionCodec" (.lit (.ident t!"codec") (.arg (.kv (.ident t!"size") (.ident t!"sizeOfFloat64Option")) (.arg (.kv (.ident t!"encode") (.ident t!"encodeFloat64Option")) (.arg (.kv (.ident t!"decode") (.ident t!"decodeFloat64Option")) .none)))),
  .func option_sizeOfFloat64Option,
  .func option_encodeFloat64Option,
  .func option_decodeFloat64Option]

/-- option.go:23-25 -/
def isSome_IsSome : FuncDecl where
  recv := some (t!"o", (.index (.ident t!"Option") (.ident t!"T")))
  name := t!"IsSome"
  params := []
  results := [(t!"", (.ident t!"bool"))]
  body :=
    (.seq (.ret (.arg (.sel (.ident t!"o") t!"some") .none))
    .skip)

/-- The declarations in `isSomeGo`. -/
def isSome_decls : List Decl := [
  .func isSome_IsSome]

/-- option.go:46-48 -/
def unsafePointer_unsafePointer : FuncDecl where
  recv := some (t!"o", (.un .deref (.index (.ident t!"Option") (.ident t!"T"))))
  name := t!"unsafePointer"
  params := []
  results := [(t!"", (.sel (.ident t!"unsafe") t!"Pointer"))]
  body :=
    (.seq (.ret (.arg (.call (.sel (.ident t!"unsafe") t!"Pointer") (.arg (.un .addr (.sel (.ident t!"o") t!"value")) .none)) .none))
    .skip)

/-- The declarations in `unsafePointerGo`. -/
def unsafePointer_decls : List Decl := [
  .func unsafePointer_unsafePointer]

/-- struct.go:23-25 -/
def struct_fieldNumber : FuncDecl where
  recv := some (t!"f", (.un .deref (.ident t!"structField")))
  name := t!"fieldNumber"
  params := []
  results := [(t!"", (.ident t!"fieldNumber"))]
  body :=
    (.seq (.ret (.arg (.call (.ident t!"fieldNumber") (.arg (.bin .shr (.sel (.ident t!"f") t!"wiretag") (.num 3)) .none)) .none))
    .skip)

/-- struct.go:27-29 -/
def struct_wireType : FuncDecl where
  recv := some (t!"f", (.un .deref (.ident t!"structField")))
  name := t!"wireType"
  params := []
  results := [(t!"", (.ident t!"wireType"))]
  body :=
    (.seq (.ret (.arg (.call (.ident t!"wireType") (.arg (.bin .and (.sel (.ident t!"f") t!"wiretag") (.num 7)) .none)) .none))
    .skip)

/-- struct.go:31-33 -/
def struct_pointer : FuncDecl where
  recv := some (t!"f", (.un .deref (.ident t!"structField")))
  name := t!"pointer"
  params := [(t!"p", (.sel (.ident t!"unsafe") t!"Pointer"))]
  results := [(t!"", (.sel (.ident t!"unsafe") t!"Pointer"))]
  body :=
    (.seq (.ret (.arg (.call (.sel (.ident t!"unsafe") t!"Pointer") (.arg (.bin .add (.call (.ident t!"uintptr") (.arg (.ident t!"p") .none)) (.sel (.ident t!"f") t!"offset")) .none)) .none))
    .skip)

/-- struct.go:35-44 -/
def struct_size : FuncDecl where
  recv := some (t!"info", (.un .deref (.ident t!"structInfo")))
  name := t!"size"
  params := [(t!"p", (.sel (.ident t!"unsafe") t!"Pointer"))]
  results := [(t!"", (.ident t!"int"))]
  body :=
    (.seq (.ite .skip (.bin .eq (.ident t!"p") (.ident t!"nil"))
    (.seq (.ret (.arg (.num 0) .none))
    .skip)
    .skip)
    (.seq (.define (.arg (.ident t!"n") .none) (.num 0))
    (.seq (.range t!"_" t!"f" (.sel (.ident t!"info") t!"fields")
    (.seq (.opAssign .add (.ident t!"n") (.call (.sel (.sel (.ident t!"f") t!"codec") t!"size") (.arg (.call (.sel (.ident t!"f") t!"pointer") (.arg (.ident t!"p") .none)) (.arg (.ident t!"f") .none))))
    .skip))
    (.seq (.ret (.arg (.ident t!"n") .none))
    .skip))))

/-- struct.go:46-54 -/
def struct_encode : FuncDecl where
  recv := some (t!"info", (.un .deref (.ident t!"structInfo")))
  name := t!"encode"
  params := [(t!"b", (.un .sliceOf (.ident t!"byte"))), (t!"p", (.sel (.ident t!"unsafe") t!"Pointer"))]
  results := [(t!"", (.un .sliceOf (.ident t!"byte")))]
  body :=
    (.seq (.ite .skip (.bin .eq (.ident t!"p") (.ident t!"nil"))
    (.seq (.ret (.arg (.ident t!"b") .none))
    .skip)
    .skip)
    (.seq (.range t!"_" t!"f" (.sel (.ident t!"info") t!"fields")
    (.seq (.assign (.arg (.ident t!"b") .none) (.arg (.call (.sel (.sel (.ident t!"f") t!"codec") t!"encode") (.arg (.ident t!"b") (.arg (.call (.sel (.ident t!"f") t!"pointer") (.arg (.ident t!"p") .none)) (.arg (.ident t!"f") .none)))) .none))
    .skip))
    (.seq (.ret (.arg (.ident t!"b") .none))
    .skip)))

/-- struct.go:56-149 -/
def struct_decode : FuncDecl where
  recv := some (t!"info", (.un .deref (.ident t!"structInfo")))
  name := t!"decode"
  params := [(t!"b", (.un .sliceOf (.ident t!"byte"))), (t!"p", (.sel (.ident t!"unsafe") t!"Pointer"))]
  results := [(t!"", (.ident t!"int")), (t!"", (.ident t!"error"))]
  body :=
    (.seq (.define (.arg (.ident t!"offset") .none) (.num 0))
    (.seq (.loop .skip (.bin .lt (.ident t!"offset") (.call (.ident t!"len") (.arg (.ident t!"b") .none))) .skip
    (.seq (.define (.arg (.ident t!"fieldNumber") (.arg (.ident t!"wireType") (.arg (.ident t!"n") (.arg (.ident t!"err") .none)))) (.call (.ident t!"decodeTag") (.arg (.slice (.ident t!"b") (.ident t!"offset") .none) .none)))
    (.seq (.opAssign .add (.ident t!"offset") (.ident t!"n"))
    (.seq (.ite .skip (.bin .ne (.ident t!"err") (.ident t!"nil"))
    (.seq (.ret (.arg (.ident t!"offset") (.arg (.ident t!"err") .none)))
    .skip)
    .skip)
    (.seq (.define (.arg (.ident t!"f") .none) (.index (.sel (.ident t!"info") t!"fieldIndex") (.ident t!"fieldNumber")))
    (.seq (.ite .skip (.bin .eq (.ident t!"f") (.ident t!"nil"))
    (.seq (.define (.arg (.ident t!"skip") .none) (.num 0))
    (.seq (.define (.arg (.ident t!"size") .none) (.call (.ident t!"uint64") (.arg (.num 0) .none)))
    (.seq (.switch (.ident t!"wireType")
    (.case (.arg (.ident t!"varint") .none)
    (.seq (.assign (.arg (.ident t!"_") (.arg (.ident t!"skip") (.arg (.ident t!"err") .none))) (.arg (.call (.ident t!"decodeVarint") (.arg (.slice (.ident t!"b") (.ident t!"offset") .none) .none)) .none))
    .skip)
    (.case (.arg (.ident t!"varlen") .none)
    (.seq (.assign (.arg (.ident t!"size") (.arg (.ident t!"skip") (.arg (.ident t!"err") .none))) (.arg (.call (.ident t!"decodeVarint") (.arg (.slice (.ident t!"b") (.ident t!"offset") .none) .none)) .none))
    (.seq (.ite .skip (.bin .eq (.ident t!"err") (.ident t!"nil"))
    (.seq (.ite .skip (.bin .gt (.ident t!"size") (.call (.ident t!"uint64") (.arg (.bin .sub (.call (.ident t!"len") (.arg (.ident t!"b") .none)) (.ident t!"skip")) .none)))
    (.seq (.assign (.arg (.ident t!"err") .none) (.arg (.sel (.ident t!"io") t!"ErrUnexpectedEOF") .none))
    .skip)
    (.seq (.opAssign .add (.ident t!"skip") (.call (.ident t!"int") (.arg (.ident t!"size") .none)))
    .skip))
    .skip)
    .skip)
    .skip))
    (.case (.arg (.ident t!"fixed32") .none)
    (.seq (.assign (.arg (.ident t!"skip") .none) (.arg (.num 4) .none))
    .skip)
    (.case (.arg (.ident t!"fixed64") .none)
    (.seq (.assign (.arg (.ident t!"skip") .none) (.arg (.num 8) .none))
    .skip)
    (.default (.seq (.assign (.arg (.ident t!"err") .none) (.arg (.ident t!"ErrWireTypeUnknown") .none))
    .skip) .skip))))))
    (.seq (.ite .skip (.bin .le (.bin .add (.ident t!"offset") (.ident t!"skip")) (.call (.ident t!"len") (.arg (.ident t!"b") .none)))
    (.seq (.opAssign .add (.ident t!"offset") (.ident t!"skip"))
    .skip)
    (.seq (.assign (.arg (.ident t!"offset") (.arg (.ident t!"err") .none)) (.arg (.call (.ident t!"len") (.arg (.ident t!"b") .none)) (.arg (.sel (.ident t!"io") t!"ErrUnexpectedEOF") .none)))
    .skip))
    (.seq (.ite .skip (.bin .ne (.ident t!"err") (.ident t!"nil"))
    (.seq (.ret (.arg (.ident t!"offset") (.arg (.call (.ident t!"fieldError") (.arg (.ident t!"fieldNumber") (.arg (.ident t!"wireType") (.arg (.ident t!"err") .none)))) .none)))
    .skip)
    .skip)
    (.seq .cont
    .skip))))))
    .skip)
    (.seq (.ite .skip (.bin .ne (.ident t!"wireType") (.call (.sel (.ident t!"f") t!"wireType") .none))
    (.seq (.ret (.arg (.ident t!"offset") (.arg (.call (.ident t!"fieldError") (.arg (.ident t!"fieldNumber") (.arg (.ident t!"wireType") (.arg (.call (.sel (.ident t!"fmt") t!"Errorf") (.arg (.str t!"expected wire type %d") (.arg (.call (.sel (.ident t!"f") t!"wireType") .none) .none))) .none)))) .none)))
    .skip)
    .skip)
    (.seq (.var t!"data" (.un .sliceOf (.ident t!"byte")))
    (.seq (.switch (.ident t!"wireType")
    (.case (.arg (.ident t!"varint") .none)
    (.seq (.define (.arg (.ident t!"_") (.arg (.ident t!"n") (.arg (.ident t!"err") .none))) (.call (.ident t!"decodeVarint") (.arg (.slice (.ident t!"b") (.ident t!"offset") .none) .none)))
    (.seq (.ite .skip (.bin .ne (.ident t!"err") (.ident t!"nil"))
    (.seq (.ret (.arg (.ident t!"offset") (.arg (.call (.ident t!"fieldError") (.arg (.ident t!"fieldNumber") (.arg (.ident t!"wireType") (.arg (.ident t!"err") .none)))) .none)))
    .skip)
    .skip)
    (.seq (.assign (.arg (.ident t!"data") .none) (.arg (.slice (.ident t!"b") (.ident t!"offset") (.bin .add (.ident t!"offset") (.ident t!"n"))) .none))
    .skip)))
    (.case (.arg (.ident t!"varlen") .none)
    (.seq (.define (.arg (.ident t!"l") (.arg (.ident t!"n") (.arg (.ident t!"err") .none))) (.call (.ident t!"decodeVarint") (.arg (.slice (.ident t!"b") (.ident t!"offset") .none) .none)))
    (.seq (.ite .skip (.bin .ne (.ident t!"err") (.ident t!"nil"))
    (.seq (.ret (.arg (.bin .add (.ident t!"offset") (.ident t!"n")) (.arg (.call (.ident t!"fieldError") (.arg (.ident t!"fieldNumber") (.arg (.ident t!"wireType") (.arg (.ident t!"err") .none)))) .none)))
    .skip)
    .skip)
    (.seq (.ite .skip (.bin .gt (.ident t!"l") (.call (.ident t!"uint64") (.arg (.bin .sub (.call (.ident t!"len") (.arg (.ident t!"b") .none)) (.bin .add (.ident t!"offset") (.ident t!"n"))) .none)))
    (.seq (.ret (.arg (.call (.ident t!"len") (.arg (.ident t!"b") .none)) (.arg (.call (.ident t!"fieldError") (.arg (.ident t!"fieldNumber") (.arg (.ident t!"wireType") (.arg (.sel (.ident t!"io") t!"ErrUnexpectedEOF") .none)))) .none)))
    .skip)
    .skip)
    (.seq (.assign (.arg (.ident t!"data") .none) (.arg (.slice (.ident t!"b") (.ident t!"offset") (.bin .add (.bin .add (.ident t!"offset") (.ident t!"n")) (.call (.ident t!"int") (.arg (.ident t!"l") .none)))) .none))
    .skip))))
    (.case (.arg (.ident t!"fixed32") .none)
    (.seq (.ite .skip (.bin .gt (.bin .add (.ident t!"offset") (.num 4)) (.call (.ident t!"len") (.arg (.ident t!"b") .none)))
    (.seq (.ret (.arg (.call (.ident t!"len") (.arg (.ident t!"b") .none)) (.arg (.call (.ident t!"fieldError") (.arg (.ident t!"fieldNumber") (.arg (.ident t!"wireType") (.arg (.sel (.ident t!"io") t!"ErrUnexpectedEOF") .none)))) .none)))
    .skip)
    .skip)
    (.seq (.assign (.arg (.ident t!"data") .none) (.arg (.slice (.ident t!"b") (.ident t!"offset") (.bin .add (.ident t!"offset") (.num 4))) .none))
    .skip))
    (.case (.arg (.ident t!"fixed64") .none)
    (.seq (.ite .skip (.bin .gt (.bin .add (.ident t!"offset") (.num 8)) (.call (.ident t!"len") (.arg (.ident t!"b") .none)))
    (.seq (.ret (.arg (.call (.ident t!"len") (.arg (.ident t!"b") .none)) (.arg (.call (.ident t!"fieldError") (.arg (.ident t!"fieldNumber") (.arg (.ident t!"wireType") (.arg (.sel (.ident t!"io") t!"ErrUnexpectedEOF") .none)))) .none)))
    .skip)
    .skip)
    (.seq (.assign (.arg (.ident t!"data") .none) (.arg (.slice (.ident t!"b") (.ident t!"offset") (.bin .add (.ident t!"offset") (.num 8))) .none))
    .skip))
    (.default (.seq (.ret (.arg (.ident t!"offset") (.arg (.call (.ident t!"fieldError") (.arg (.ident t!"fieldNumber") (.arg (.ident t!"wireType") (.arg (.ident t!"ErrWireTypeUnknown") .none)))) .none)))
    .skip) .skip))))))
    (.seq (.assign (.arg (.ident t!"n") (.arg (.ident t!"err") .none)) (.arg (.call (.sel (.sel (.ident t!"f") t!"codec") t!"decode") (.arg (.ident t!"data") (.arg (.call (.sel (.ident t!"f") t!"pointer") (.arg (.ident t!"p") .none)) .none))) .none))
    (.seq (.opAssign .add (.ident t!"offset") (.ident t!"n"))
    (.seq (.ite .skip (.bin .ne (.ident t!"err") (.ident t!"nil"))
    (.seq (.ret (.arg (.ident t!"offset") (.arg (.call (.ident t!"fieldError") (.arg (.ident t!"fieldNumber") (.arg (.ident t!"wireType") (.arg (.ident t!"err") .none)))) .none)))
    .skip)
    .skip)
    .skip))))))))))))
    (.seq (.ret (.arg (.ident t!"offset") (.arg (.ident t!"nil") .none)))
    .skip)))

/-- The declarations in `structGo`. -/
def struct_decls : List Decl := [
  .other t!"package" [.word t!"proto"],
  .imports [t!"fmt", t!"io", t!"strconv", t!"strings", t!"unsafe"],
  .other t!"type" [.word t!"structInfo", .word t!"struct", .op t!"{", .word t!"fields", .op t!"[", .op t!"]", .op t!"*", .word t!"structField", .semi, .word t!"fieldIndex", .word t!"map", .op t!"[", .word t!"fieldNumber", .op t!"]", .op t!"*", .word t!"structField", .semi, .op t!"}"],
  .other t!"type" [.word t!"structField", .word t!"struct", .op t!"{", .word t!"offset", .word t!"uintptr", .semi, .word t!"wiretag", .word t!"uint64", .semi, .word t!"codec", .op t!"*", .word t!"codec", .semi, .word t!"tagsize", .word t!"int", .semi, .op t!"}"],
  .func struct_fieldNumber,
  .func struct_wireType,
  .func struct_pointer,
  .func struct_size,
  .func struct_encode,
  .func struct_decode]

/-- walker.go:280-282 -/
def deref_deref : FuncDecl where
  recv := none
  name := t!"deref"
  params := [(t!"p", (.sel (.ident t!"unsafe") t!"Pointer"))]
  results := [(t!"", (.sel (.ident t!"unsafe") t!"Pointer"))]
  body :=
    (.seq (.ret (.arg (.un .deref (.call (.un .deref (.sel (.ident t!"unsafe") t!"Pointer")) (.arg (.ident t!"p") .none))) .none))
    .skip)

/-- The declarations in `derefGo`. -/
def deref_decls : List Decl := [
  .func deref_deref]

/-- slice.go:90-99 -/
def growSlice_growSlice : FuncDecl where
  recv := none
  name := t!"growSlice"
  params := [(t!"t", (.sel (.ident t!"reflect") t!"Type")), (t!"s", (.un .deref (.ident t!"Slice")))]
  results := [(t!"", (.ident t!"Slice"))]
  body :=
    (.seq (.define (.arg (.ident t!"cap") .none) (.bin .mul (.num 2) (.call (.sel (.ident t!"s") t!"Cap") .none)))
    (.seq (.ite .skip (.bin .eq (.ident t!"cap") (.num 0))
    (.seq (.assign (.arg (.ident t!"cap") .none) (.arg (.num 10) .none))
    .skip)
    .skip)
    (.seq (.define (.arg (.ident t!"p") .none) (.call (.ident t!"pointer") (.arg (.ident t!"t") .none)))
    (.seq (.define (.arg (.ident t!"d") .none) (.call (.ident t!"MakeSlice") (.arg (.ident t!"p") (.arg (.call (.sel (.ident t!"s") t!"Len") .none) (.arg (.ident t!"cap") .none)))))
    (.seq (.expr (.call (.ident t!"CopySlice") (.arg (.ident t!"p") (.arg (.ident t!"d") (.arg (.un .deref (.ident t!"s")) .none)))))
    (.seq (.ret (.arg (.ident t!"d") .none))
    .skip))))))

/-- The declarations in `growSliceGo`. -/
def growSlice_decls : List Decl := [
  .func growSlice_growSlice]

/-- error.go:23-29 -/
def fieldError_fieldError : FuncDecl where
  recv := none
  name := t!"fieldError"
  params := [(t!"f", (.ident t!"fieldNumber")), (t!"t", (.ident t!"wireType")), (t!"err", (.ident t!"error"))]
  results := [(t!"", (.ident t!"error"))]
  body :=
    (.seq (.ret (.arg (.un .addr (.lit (.ident t!"UnmarshalFieldError") (.arg (.kv (.ident t!"FieldNumber") (.call (.ident t!"int") (.arg (.ident t!"f") .none))) (.arg (.kv (.ident t!"WireType") (.call (.ident t!"int") (.arg (.ident t!"t") .none))) (.arg (.kv (.ident t!"Err") (.ident t!"err")) .none))))) .none))
    .skip)

/-- The declarations in `fieldErrorGo`. -/
def fieldError_decls : List Decl := [
  .func fieldError_fieldError]

/-- proto.go:15-23 -/
def api_Size : FuncDecl where
  recv := none
  name := t!"Size"
  params := [(t!"v", (.ident t!"interface{}"))]
  results := [(t!"", (.ident t!"int"))]
  body :=
    (.seq (.define (.arg (.ident t!"t") (.arg (.ident t!"p") .none)) (.call (.ident t!"inspect") (.arg (.ident t!"v") .none)))
    (.seq (.ite .skip (.bin .ne (.call (.sel (.ident t!"t") t!"Kind") .none) (.sel (.ident t!"reflect") t!"Ptr"))
    (.seq (.expr (.call (.ident t!"panic") (.arg (.call (.sel (.ident t!"fmt") t!"Errorf") (.arg (.str t!"proto.Marshal(%T): not a pointer") (.arg (.ident t!"v") .none))) .none)))
    .skip)
    .skip)
    (.seq (.assign (.arg (.ident t!"t") .none) (.arg (.call (.sel (.ident t!"t") t!"Elem") .none) .none))
    (.seq (.define (.arg (.ident t!"info") .none) (.call (.ident t!"cachedStructInfoOf") (.arg (.ident t!"t") .none)))
    (.seq (.ret (.arg (.call (.sel (.ident t!"info") t!"size") (.arg (.ident t!"p") .none)) .none))
    .skip)))))

/-- proto.go:25-35 -/
def api_Marshal : FuncDecl where
  recv := none
  name := t!"Marshal"
  params := [(t!"v", (.ident t!"interface{}"))]
  results := [(t!"", (.un .sliceOf (.ident t!"byte"))), (t!"", (.ident t!"error"))]
  body :=
    (.seq (.define (.arg (.ident t!"t") (.arg (.ident t!"p") .none)) (.call (.ident t!"inspect") (.arg (.ident t!"v") .none)))
    (.seq (.ite .skip (.bin .ne (.call (.sel (.ident t!"t") t!"Kind") .none) (.sel (.ident t!"reflect") t!"Ptr"))
    (.seq (.ret (.arg (.ident t!"nil") (.arg (.call (.sel (.ident t!"fmt") t!"Errorf") (.arg (.str t!"proto.Marshal(%T): not a pointer") (.arg (.ident t!"v") .none))) .none)))
    .skip)
    .skip)
    (.seq (.assign (.arg (.ident t!"t") .none) (.arg (.call (.sel (.ident t!"t") t!"Elem") .none) .none))
    (.seq (.define (.arg (.ident t!"info") .none) (.call (.ident t!"cachedStructInfoOf") (.arg (.ident t!"t") .none)))
    (.seq (.define (.arg (.ident t!"b") .none) (.call (.ident t!"make") (.arg (.un .sliceOf (.ident t!"byte")) (.arg (.num 0) (.arg (.call (.sel (.ident t!"info") t!"size") (.arg (.ident t!"p") .none)) .none)))))
    (.seq (.assign (.arg (.ident t!"b") .none) (.arg (.call (.sel (.ident t!"info") t!"encode") (.arg (.ident t!"b") (.arg (.ident t!"p") .none))) .none))
    (.seq (.ret (.arg (.ident t!"b") (.arg (.ident t!"nil") .none)))
    .skip)))))))

/-- proto.go:37-61 -/
def api_Unmarshal : FuncDecl where
  recv := none
  name := t!"Unmarshal"
  params := [(t!"b", (.un .sliceOf (.ident t!"byte"))), (t!"v", (.ident t!"interface{}"))]
  results := [(t!"", (.ident t!"error"))]
  body :=
    (.seq (.ite .skip (.bin .eq (.call (.ident t!"len") (.arg (.ident t!"b") .none)) (.num 0))
    (.seq (.ret (.arg (.ident t!"nil") .none))
    .skip)
    .skip)
    (.seq (.define (.arg (.ident t!"t") (.arg (.ident t!"p") .none)) (.call (.ident t!"inspect") (.arg (.ident t!"v") .none)))
    (.seq (.ite .skip (.bin .lor (.bin .ne (.call (.sel (.ident t!"t") t!"Kind") .none) (.sel (.ident t!"reflect") t!"Pointer")) (.bin .eq (.ident t!"p") (.ident t!"nil")))
    (.seq (.ret (.arg (.un .addr (.lit (.ident t!"InvalidUnmarshalError") (.arg (.kv (.ident t!"Type") (.ident t!"t")) .none))) .none))
    .skip)
    .skip)
    (.seq (.define (.arg (.ident t!"elem") .none) (.call (.sel (.ident t!"t") t!"Elem") .none))
    (.seq (.ite .skip (.bin .ne (.call (.sel (.ident t!"elem") t!"Kind") .none) (.sel (.ident t!"reflect") t!"Struct"))
    (.seq (.ret (.arg (.un .addr (.lit (.ident t!"InvalidUnmarshalError") (.arg (.kv (.ident t!"Type") (.ident t!"t")) .none))) .none))
    .skip)
    .skip)
    (.seq (.define (.arg (.ident t!"c") .none) (.call (.ident t!"cachedStructInfoOf") (.arg (.ident t!"elem") .none)))
    (.seq (.define (.arg (.ident t!"n") (.arg (.ident t!"err") .none)) (.call (.sel (.ident t!"c") t!"decode") (.arg (.ident t!"b") (.arg (.ident t!"p") .none))))
    (.seq (.ite .skip (.bin .ne (.ident t!"err") (.ident t!"nil"))
    (.seq (.ret (.arg (.ident t!"err") .none))
    .skip)
    .skip)
    (.seq (.ite .skip (.bin .lt (.ident t!"n") (.call (.ident t!"len") (.arg (.ident t!"b") .none)))
    (.seq (.ret (.arg (.call (.sel (.ident t!"fmt") t!"Errorf") (.arg (.str t!"proto.Unmarshal(%T): read=%d < buffer=%d") (.arg (.ident t!"v") (.arg (.ident t!"n") (.arg (.call (.ident t!"len") (.arg (.ident t!"b") .none)) .none))))) .none))
    .skip)
    .skip)
    (.seq (.ret (.arg (.ident t!"nil") .none))
    .skip))))))))))

/-- The declarations in `apiGo`. -/
def api_decls : List Decl := [
  .func api_Size,
  .func api_Marshal,
  .func api_Unmarshal]

/-- proto.go:68-70 -/
def inspect_inspect : FuncDecl where
  recv := none
  name := t!"inspect"
  params := [(t!"v", (.ident t!"interface{}"))]
  results := [(t!"", (.sel (.ident t!"reflect") t!"Type")), (t!"", (.sel (.ident t!"unsafe") t!"Pointer"))]
  body :=
    (.seq (.ret (.arg (.call (.sel (.ident t!"reflect") t!"TypeOf") (.arg (.ident t!"v") .none)) (.arg (.call (.ident t!"pointer") (.arg (.ident t!"v") .none)) .none)))
    .skip)

/-- The declarations in `inspectGo`. -/
def inspect_decls : List Decl := [
  .func inspect_inspect]

/-- walker.go:88-96 -/
def closure_messageSize : FuncDecl where
  recv := none
  name := t!""
  params := [(t!"p", (.sel (.ident t!"unsafe") t!"Pointer")), (t!"f", (.un .deref (.ident t!"structField")))]
  results := [(t!"", (.ident t!"int"))]
  body :=
    (.seq (.assign (.arg (.ident t!"p") .none) (.arg (.call (.ident t!"deref") (.arg (.ident t!"p") .none)) .none))
    (.seq (.ite .skip (.bin .ne (.ident t!"p") (.ident t!"nil"))
    (.seq (.define (.arg (.ident t!"n") .none) (.call (.sel (.ident t!"info") t!"size") (.arg (.ident t!"p") .none)))
    (.seq (.opAssign .add (.ident t!"n") (.bin .add (.call (.ident t!"sizeOfVarint") (.arg (.call (.ident t!"uint64") (.arg (.ident t!"n") .none)) .none)) (.sel (.ident t!"f") t!"tagsize")))
    (.seq (.ret (.arg (.ident t!"n") .none))
    .skip)))
    .skip)
    (.seq (.ret (.arg (.num 0) .none))
    .skip)))

/-- walker.go:97-106 -/
def closure_messageEncode : FuncDecl where
  recv := none
  name := t!""
  params := [(t!"b", (.un .sliceOf (.ident t!"byte"))), (t!"p", (.sel (.ident t!"unsafe") t!"Pointer")), (t!"f", (.un .deref (.ident t!"structField")))]
  results := [(t!"", (.un .sliceOf (.ident t!"byte")))]
  body :=
    (.seq (.assign (.arg (.ident t!"p") .none) (.arg (.call (.ident t!"deref") (.arg (.ident t!"p") .none)) .none))
    (.seq (.ite .skip (.bin .ne (.ident t!"p") (.ident t!"nil"))
    (.seq (.assign (.arg (.ident t!"b") .none) (.arg (.call (.ident t!"appendVarint") (.arg (.ident t!"b") (.arg (.sel (.ident t!"f") t!"wiretag") .none))) .none))
    (.seq (.define (.arg (.ident t!"n") .none) (.call (.sel (.ident t!"info") t!"size") (.arg (.ident t!"p") .none)))
    (.seq (.assign (.arg (.ident t!"b") .none) (.arg (.call (.ident t!"appendVarint") (.arg (.ident t!"b") (.arg (.call (.ident t!"uint64") (.arg (.ident t!"n") .none)) .none))) .none))
    (.seq (.ret (.arg (.call (.sel (.ident t!"info") t!"encode") (.arg (.ident t!"b") (.arg (.ident t!"p") .none))) .none))
    .skip))))
    .skip)
    (.seq (.ret (.arg (.ident t!"b") .none))
    .skip)))

/-- walker.go:107-118 -/
def closure_messageDecode : FuncDecl where
  recv := none
  name := t!""
  params := [(t!"b", (.un .sliceOf (.ident t!"byte"))), (t!"p", (.sel (.ident t!"unsafe") t!"Pointer"))]
  results := [(t!"", (.ident t!"int")), (t!"", (.ident t!"error"))]
  body :=
    (.seq (.define (.arg (.ident t!"v") .none) (.call (.un .deref (.sel (.ident t!"unsafe") t!"Pointer")) (.arg (.ident t!"p") .none)))
    (.seq (.ite .skip (.bin .eq (.un .deref (.ident t!"v")) (.ident t!"nil"))
    (.seq (.assign (.arg (.un .deref (.ident t!"v")) .none) (.arg (.call (.sel (.ident t!"unsafe") t!"Pointer") (.arg (.call (.sel (.call (.sel (.ident t!"reflect") t!"New") (.arg (.ident t!"elem") .none)) t!"Pointer") .none) .none)) .none))
    .skip)
    .skip)
    (.seq (.define (.arg (.ident t!"_") (.arg (.ident t!"n") (.arg (.ident t!"err") .none))) (.call (.ident t!"decodeVarint") (.arg (.ident t!"b") .none)))
    (.seq (.ite .skip (.bin .ne (.ident t!"err") (.ident t!"nil"))
    (.seq (.ret (.arg (.ident t!"n") (.arg (.ident t!"err") .none)))
    .skip)
    .skip)
    (.seq (.define (.arg (.ident t!"l") (.arg (.ident t!"err") .none)) (.call (.sel (.ident t!"info") t!"decode") (.arg (.slice (.ident t!"b") (.ident t!"n") .none) (.arg (.un .deref (.ident t!"v")) .none))))
    (.seq (.ret (.arg (.bin .add (.ident t!"n") (.ident t!"l")) (.arg (.ident t!"err") .none)))
    .skip))))))

/-- walker.go:343-349 -/
def closure_pointerSize : FuncDecl where
  recv := none
  name := t!""
  params := [(t!"p", (.sel (.ident t!"unsafe") t!"Pointer")), (t!"f", (.un .deref (.ident t!"structField")))]
  results := [(t!"", (.ident t!"int"))]
  body :=
    (.seq (.assign (.arg (.ident t!"p") .none) (.arg (.call (.ident t!"deref") (.arg (.ident t!"p") .none)) .none))
    (.seq (.ite .skip (.bin .ne (.ident t!"p") (.ident t!"nil"))
    (.seq (.ret (.arg (.call (.sel (.ident t!"c") t!"size") (.arg (.ident t!"p") (.arg (.ident t!"f") .none))) .none))
    .skip)
    .skip)
    (.seq (.ret (.arg (.num 0) .none))
    .skip)))

/-- walker.go:353-359 -/
def closure_pointerEncode : FuncDecl where
  recv := none
  name := t!""
  params := [(t!"b", (.un .sliceOf (.ident t!"byte"))), (t!"p", (.sel (.ident t!"unsafe") t!"Pointer")), (t!"f", (.un .deref (.ident t!"structField")))]
  results := [(t!"", (.un .sliceOf (.ident t!"byte")))]
  body :=
    (.seq (.assign (.arg (.ident t!"p") .none) (.arg (.call (.ident t!"deref") (.arg (.ident t!"p") .none)) .none))
    (.seq (.ite .skip (.bin .ne (.ident t!"p") (.ident t!"nil"))
    (.seq (.ret (.arg (.call (.sel (.ident t!"c") t!"encode") (.arg (.ident t!"b") (.arg (.ident t!"p") (.arg (.ident t!"f") .none)))) .none))
    .skip)
    .skip)
    (.seq (.ret (.arg (.ident t!"b") .none))
    .skip)))

/-- walker.go:364-370 -/
def closure_pointerDecode : FuncDecl where
  recv := none
  name := t!""
  params := [(t!"b", (.un .sliceOf (.ident t!"byte"))), (t!"p", (.sel (.ident t!"unsafe") t!"Pointer"))]
  results := [(t!"", (.ident t!"int")), (t!"", (.ident t!"error"))]
  body :=
    (.seq (.define (.arg (.ident t!"v") .none) (.call (.un .deref (.sel (.ident t!"unsafe") t!"Pointer")) (.arg (.ident t!"p") .none)))
    (.seq (.ite .skip (.bin .eq (.un .deref (.ident t!"v")) (.ident t!"nil"))
    (.seq (.assign (.arg (.un .deref (.ident t!"v")) .none) (.arg (.call (.sel (.ident t!"unsafe") t!"Pointer") (.arg (.call (.sel (.call (.sel (.ident t!"reflect") t!"New") (.arg (.ident t!"t") .none)) t!"Pointer") .none) .none)) .none))
    .skip)
    .skip)
    (.seq (.ret (.arg (.call (.sel (.ident t!"c") t!"decode") (.arg (.ident t!"b") (.arg (.un .deref (.ident t!"v")) .none))) .none))
    .skip)))

/-- slice.go:33-42 -/
def closure_sliceSize : FuncDecl where
  recv := none
  name := t!""
  params := [(t!"p", (.sel (.ident t!"unsafe") t!"Pointer")), (t!"sf", (.un .deref (.ident t!"structField")))]
  results := [(t!"", (.ident t!"int"))]
  body :=
    (.seq (.define (.arg (.ident t!"n") .none) (.num 0))
    (.seq (.ite (.define (.arg (.ident t!"v") .none) (.call (.un .deref (.ident t!"Slice")) (.arg (.ident t!"p") .none))) (.bin .ne (.ident t!"v") (.ident t!"nil"))
    (.seq (.loop (.define (.arg (.ident t!"i") .none) (.num 0)) (.bin .lt (.ident t!"i") (.call (.sel (.ident t!"v") t!"Len") .none)) (.opAssign .add (.ident t!"i") (.num 1))
    (.seq (.define (.arg (.ident t!"elem") .none) (.call (.sel (.ident t!"v") t!"Index") (.arg (.ident t!"i") (.arg (.ident t!"elemSize") .none))))
    (.seq (.opAssign .add (.ident t!"n") (.call (.sel (.ident t!"c") t!"size") (.arg (.ident t!"elem") (.arg (.ident t!"sf") .none))))
    .skip)))
    .skip)
    .skip)
    (.seq (.ret (.arg (.ident t!"n") .none))
    .skip)))

/-- slice.go:47-55 -/
def closure_sliceEncode : FuncDecl where
  recv := none
  name := t!""
  params := [(t!"b", (.un .sliceOf (.ident t!"byte"))), (t!"p", (.sel (.ident t!"unsafe") t!"Pointer")), (t!"sf", (.un .deref (.ident t!"structField")))]
  results := [(t!"", (.un .sliceOf (.ident t!"byte")))]
  body :=
    (.seq (.ite (.define (.arg (.ident t!"s") .none) (.call (.un .deref (.ident t!"Slice")) (.arg (.ident t!"p") .none))) (.bin .ne (.ident t!"s") (.ident t!"nil"))
    (.seq (.loop (.define (.arg (.ident t!"i") .none) (.num 0)) (.bin .lt (.ident t!"i") (.call (.sel (.ident t!"s") t!"Len") .none)) (.opAssign .add (.ident t!"i") (.num 1))
    (.seq (.define (.arg (.ident t!"elem") .none) (.call (.sel (.ident t!"s") t!"Index") (.arg (.ident t!"i") (.arg (.ident t!"elemSize") .none))))
    (.seq (.assign (.arg (.ident t!"b") .none) (.arg (.call (.sel (.ident t!"c") t!"encode") (.arg (.ident t!"b") (.arg (.ident t!"elem") (.arg (.ident t!"sf") .none)))) .none))
    .skip)))
    .skip)
    .skip)
    (.seq (.ret (.arg (.ident t!"b") .none))
    .skip))

/-- slice.go:61-74 -/
def closure_sliceDecode : FuncDecl where
  recv := none
  name := t!""
  params := [(t!"b", (.un .sliceOf (.ident t!"byte"))), (t!"p", (.sel (.ident t!"unsafe") t!"Pointer"))]
  results := [(t!"", (.ident t!"int")), (t!"", (.ident t!"error"))]
  body :=
    (.seq (.define (.arg (.ident t!"s") .none) (.call (.un .deref (.ident t!"Slice")) (.arg (.ident t!"p") .none)))
    (.seq (.define (.arg (.ident t!"i") .none) (.call (.sel (.ident t!"s") t!"Len") .none))
    (.seq (.ite .skip (.bin .eq (.ident t!"i") (.call (.sel (.ident t!"s") t!"Cap") .none))
    (.seq (.assign (.arg (.un .deref (.ident t!"s")) .none) (.arg (.call (.ident t!"growSlice") (.arg (.ident t!"elemType") (.arg (.ident t!"s") .none))) .none))
    .skip)
    .skip)
    (.seq (.define (.arg (.ident t!"n") (.arg (.ident t!"err") .none)) (.call (.sel (.ident t!"c") t!"decode") (.arg (.ident t!"b") (.arg (.call (.sel (.ident t!"s") t!"Index") (.arg (.ident t!"i") (.arg (.ident t!"elemSize") .none))) .none))))
    (.seq (.ite .skip (.bin .eq (.ident t!"err") (.ident t!"nil"))
    (.seq (.expr (.call (.sel (.ident t!"s") t!"SetLen") (.arg (.bin .add (.ident t!"i") (.num 1)) .none)))
    .skip)
    .skip)
    (.seq (.ret (.arg (.ident t!"n") (.arg (.ident t!"err") .none)))
    .skip))))))

/-- map.go:35-55 -/
def closure_mapSize : FuncDecl where
  recv := none
  name := t!""
  params := [(t!"p", (.sel (.ident t!"unsafe") t!"Pointer")), (t!"sf", (.un .deref (.ident t!"structField")))]
  results := [(t!"", (.ident t!"int"))]
  body :=
    (.seq (.ite .skip (.bin .eq (.ident t!"p") (.ident t!"nil"))
    (.seq (.ret (.arg (.num 0) .none))
    .skip)
    .skip)
    (.seq (.assign (.arg (.ident t!"p") .none) (.arg (.un .deref (.call (.un .deref (.sel (.ident t!"unsafe") t!"Pointer")) (.arg (.ident t!"p") .none))) .none))
    (.seq (.define (.arg (.ident t!"n") .none) (.num 0))
    (.seq (.define (.arg (.ident t!"m") .none) (.lit (.ident t!"MapIter") .none))
    (.seq (.defer (.call (.sel (.ident t!"m") t!"Done") .none))
    (.seq (.loop (.expr (.call (.sel (.ident t!"m") t!"Init") (.arg (.call (.ident t!"pointer") (.arg (.ident t!"t") .none)) (.arg (.ident t!"p") .none)))) (.call (.sel (.ident t!"m") t!"HasNext") .none) (.expr (.call (.sel (.ident t!"m") t!"Next") .none))
    (.seq (.define (.arg (.ident t!"keySize") .none) (.call (.sel (.ident t!"keyCodec") t!"size") (.arg (.call (.sel (.ident t!"m") t!"Key") .none) (.arg (.sel (.ident t!"f") t!"keyField") .none))))
    (.seq (.define (.arg (.ident t!"valSize") .none) (.call (.sel (.ident t!"valCodec") t!"size") (.arg (.call (.sel (.ident t!"m") t!"Value") .none) (.arg (.sel (.ident t!"f") t!"valField") .none))))
    (.seq (.opAssign .add (.ident t!"n") (.bin .add (.bin .add (.bin .add (.ident t!"mapTagSize") (.call (.ident t!"sizeOfVarint") (.arg (.call (.ident t!"uint64") (.arg (.bin .add (.ident t!"keySize") (.ident t!"valSize")) .none)) .none))) (.ident t!"keySize")) (.ident t!"valSize")))
    .skip))))
    (.seq (.ite .skip (.bin .eq (.ident t!"n") (.num 0))
    (.seq (.assign (.arg (.ident t!"n") .none) (.arg (.bin .add (.ident t!"mapTagSize") (.ident t!"zeroSize")) .none))
    .skip)
    .skip)
    (.seq (.ret (.arg (.ident t!"n") .none))
    .skip))))))))

/-- map.go:64-93 -/
def closure_mapEncode : FuncDecl where
  recv := none
  name := t!""
  params := [(t!"b", (.un .sliceOf (.ident t!"byte"))), (t!"p", (.sel (.ident t!"unsafe") t!"Pointer")), (t!"sf", (.un .deref (.ident t!"structField")))]
  results := [(t!"", (.un .sliceOf (.ident t!"byte")))]
  body :=
    (.seq (.ite .skip (.bin .eq (.ident t!"p") (.ident t!"nil"))
    (.seq (.ret (.arg (.ident t!"b") .none))
    .skip)
    .skip)
    (.seq (.assign (.arg (.ident t!"p") .none) (.arg (.un .deref (.call (.un .deref (.sel (.ident t!"unsafe") t!"Pointer")) (.arg (.ident t!"p") .none))) .none))
    (.seq (.define (.arg (.ident t!"origLen") .none) (.call (.ident t!"len") (.arg (.ident t!"b") .none)))
    (.seq (.define (.arg (.ident t!"m") .none) (.lit (.ident t!"MapIter") .none))
    (.seq (.defer (.call (.sel (.ident t!"m") t!"Done") .none))
    (.seq (.loop (.expr (.call (.sel (.ident t!"m") t!"Init") (.arg (.call (.ident t!"pointer") (.arg (.ident t!"t") .none)) (.arg (.ident t!"p") .none)))) (.call (.sel (.ident t!"m") t!"HasNext") .none) (.expr (.call (.sel (.ident t!"m") t!"Next") .none))
    (.seq (.define (.arg (.ident t!"key") .none) (.call (.sel (.ident t!"m") t!"Key") .none))
    (.seq (.define (.arg (.ident t!"val") .none) (.call (.sel (.ident t!"m") t!"Value") .none))
    (.seq (.define (.arg (.ident t!"keySize") .none) (.call (.sel (.ident t!"keyCodec") t!"size") (.arg (.ident t!"key") (.arg (.sel (.ident t!"f") t!"keyField") .none))))
    (.seq (.define (.arg (.ident t!"valSize") .none) (.call (.sel (.ident t!"keyCodec") t!"size") (.arg (.ident t!"val") (.arg (.sel (.ident t!"f") t!"valField") .none))))
    (.seq (.define (.arg (.ident t!"elemSize") .none) (.bin .add (.ident t!"keySize") (.ident t!"valSize")))
    (.seq (.assign (.arg (.ident t!"b") .none) (.arg (.call (.ident t!"append") (.arg (.ident t!"b") (.arg (.spread (.ident t!"mapTag")) .none))) .none))
    (.seq (.assign (.arg (.ident t!"b") .none) (.arg (.call (.ident t!"appendVarint") (.arg (.ident t!"b") (.arg (.call (.ident t!"uint64") (.arg (.ident t!"elemSize") .none)) .none))) .none))
    (.seq (.assign (.arg (.ident t!"b") .none) (.arg (.call (.sel (.ident t!"keyCodec") t!"encode") (.arg (.ident t!"b") (.arg (.ident t!"key") (.arg (.sel (.ident t!"f") t!"keyField") .none)))) .none))
    (.seq (.assign (.arg (.ident t!"b") .none) (.arg (.call (.sel (.ident t!"valCodec") t!"encode") (.arg (.ident t!"b") (.arg (.ident t!"val") (.arg (.sel (.ident t!"f") t!"valField") .none)))) .none))
    .skip))))))))))
    (.seq (.ite .skip (.bin .eq (.call (.ident t!"len") (.arg (.ident t!"b") .none)) (.ident t!"origLen"))
    (.seq (.assign (.arg (.ident t!"b") .none) (.arg (.call (.ident t!"append") (.arg (.ident t!"b") (.arg (.spread (.ident t!"zero")) .none))) .none))
    .skip)
    .skip)
    (.seq (.ret (.arg (.ident t!"b") .none))
    .skip))))))))

/-- map.go:117-143 -/
def closure_mapDecode : FuncDecl where
  recv := none
  name := t!""
  params := [(t!"b", (.un .sliceOf (.ident t!"byte"))), (t!"p", (.sel (.ident t!"unsafe") t!"Pointer"))]
  results := [(t!"", (.ident t!"int")), (t!"", (.ident t!"error"))]
  body :=
    (.seq (.define (.arg (.ident t!"m") .none) (.call (.un .deref (.sel (.ident t!"unsafe") t!"Pointer")) (.arg (.ident t!"p") .none)))
    (.seq (.ite .skip (.bin .eq (.un .deref (.ident t!"m")) (.ident t!"nil"))
    (.seq (.assign (.arg (.un .deref (.ident t!"m")) .none) (.arg (.call (.ident t!"MakeMap") (.arg (.ident t!"mtype") (.arg (.num 10) .none))) .none))
    .skip)
    .skip)
    (.seq (.ite .skip (.bin .eq (.call (.ident t!"len") (.arg (.ident t!"b") .none)) (.num 0))
    (.seq (.ret (.arg (.num 0) (.arg (.ident t!"nil") .none)))
    .skip)
    .skip)
    (.seq (.define (.arg (.ident t!"s") .none) (.call (.ident t!"pointer") (.arg (.call (.sel (.ident t!"structPool") t!"Get") .none) .none)))
    (.seq (.ite .skip (.bin .eq (.ident t!"s") (.ident t!"nil"))
    (.seq (.assign (.arg (.ident t!"s") .none) (.arg (.call (.sel (.ident t!"unsafe") t!"Pointer") (.arg (.call (.sel (.call (.sel (.ident t!"reflect") t!"New") (.arg (.ident t!"structType") .none)) t!"Pointer") .none) .none)) .none))
    .skip)
    .skip)
    (.seq (.define (.arg (.ident t!"_") (.arg (.ident t!"nl") (.arg (.ident t!"err") .none))) (.call (.ident t!"decodeVarint") (.arg (.ident t!"b") .none)))
    (.seq (.ite .skip (.bin .ne (.ident t!"err") (.ident t!"nil"))
    (.seq (.ret (.arg (.num 0) (.arg (.ident t!"err") .none)))
    .skip)
    .skip)
    (.seq (.define (.arg (.ident t!"n") (.arg (.ident t!"err") .none)) (.call (.sel (.ident t!"info") t!"decode") (.arg (.slice (.ident t!"b") (.ident t!"nl") .none) (.arg (.ident t!"s") .none))))
    (.seq (.ite .skip (.bin .eq (.ident t!"err") (.ident t!"nil"))
    (.seq (.define (.arg (.ident t!"v") .none) (.call (.ident t!"MapAssign") (.arg (.ident t!"mtype") (.arg (.un .deref (.ident t!"m")) (.arg (.ident t!"s") .none)))))
    (.seq (.expr (.call (.ident t!"Assign") (.arg (.ident t!"vtype") (.arg (.ident t!"v") (.arg (.call (.sel (.ident t!"unsafe") t!"Pointer") (.arg (.bin .add (.call (.ident t!"uintptr") (.arg (.ident t!"s") .none)) (.ident t!"valueOffset")) .none)) .none)))))
    .skip))
    .skip)
    (.seq (.expr (.call (.ident t!"Assign") (.arg (.ident t!"stype") (.arg (.ident t!"s") (.arg (.ident t!"structZero") .none)))))
    (.seq (.expr (.call (.sel (.ident t!"structPool") t!"Put") (.arg (.ident t!"s") .none)))
    (.seq (.ret (.arg (.bin .add (.ident t!"n") (.ident t!"nl")) (.arg (.ident t!"err") .none)))
    .skip))))))))))))

end Pb.Go.Tree
