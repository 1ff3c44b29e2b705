import Verif.Model.WalkerText
/-
The syntax trees of the texts in `Model/WalkerText`, written by tools/walktrees.py. That they are the trees of these texts is
`Props/SourceWalk.lean` `C79_trees`.
-/
namespace Pb.Go.WalkText

/-- walker.go:29-75 -/
def src_codec : FuncDecl where
  recv := some (t!"w", (.un .deref (.ident t!"walker")))
  name := t!"codec"
  params := [(t!"t", (.sel (.ident t!"reflect") t!"Type")), (t!"conf", (.un .deref (.ident t!"walkerConfig")))]
  results := [(t!"", (.un .deref (.ident t!"codec")))]
  body :=
    (.seq (.ite (.define (.arg (.ident t!"c") (.arg (.ident t!"ok") .none)) (.index (.sel (.ident t!"w") t!"codecs") (.ident t!"t"))) (.ident t!"ok")
    (.seq (.ret (.arg (.ident t!"c") .none))
    .skip)
    .skip)
    (.seq (.ite .skip (.sel (.ident t!"conf") t!"required")
    (.seq (.ret (.arg (.call (.sel (.ident t!"w") t!"required") (.arg (.ident t!"t") (.arg (.ident t!"conf") .none))) .none))
    .skip)
    .skip)
    (.seq (.switch (.call (.sel (.ident t!"t") t!"Kind") .none)
    (.case (.arg (.sel (.ident t!"reflect") t!"Bool") .none)
    (.seq (.ret (.arg (.un .addr (.ident t!"boolCodec")) .none))
    .skip)
    (.case (.arg (.sel (.ident t!"reflect") t!"Int32") .none)
    (.seq (.ite .skip (.sel (.ident t!"conf") t!"zigzag")
    (.seq (.ret (.arg (.un .addr (.ident t!"zigzag32Codec")) .none))
    .skip)
    .skip)
    (.seq (.ret (.arg (.un .addr (.ident t!"int32Codec")) .none))
    .skip))
    (.case (.arg (.sel (.ident t!"reflect") t!"Int64") .none)
    (.seq (.ite .skip (.sel (.ident t!"conf") t!"zigzag")
    (.seq (.ret (.arg (.un .addr (.ident t!"zigzag64Codec")) .none))
    .skip)
    .skip)
    (.seq (.ret (.arg (.un .addr (.ident t!"int64Codec")) .none))
    .skip))
    (.case (.arg (.sel (.ident t!"reflect") t!"Uint32") .none)
    (.seq (.ret (.arg (.un .addr (.ident t!"uint32Codec")) .none))
    .skip)
    (.case (.arg (.sel (.ident t!"reflect") t!"Uint64") .none)
    (.seq (.ret (.arg (.un .addr (.ident t!"uint64Codec")) .none))
    .skip)
    (.case (.arg (.sel (.ident t!"reflect") t!"Float32") .none)
    (.seq (.ret (.arg (.un .addr (.ident t!"float32Codec")) .none))
    .skip)
    (.case (.arg (.sel (.ident t!"reflect") t!"Float64") .none)
    (.seq (.ret (.arg (.un .addr (.ident t!"float64Codec")) .none))
    .skip)
    (.case (.arg (.sel (.ident t!"reflect") t!"String") .none)
    (.seq (.ite .skip (.sel (.ident t!"conf") t!"required")
    (.seq (.ret (.arg (.un .addr (.ident t!"stringRequiredCodec")) .none))
    .skip)
    .skip)
    (.seq (.ret (.arg (.un .addr (.ident t!"stringCodec")) .none))
    .skip))
    (.case (.arg (.sel (.ident t!"reflect") t!"Slice") .none)
    (.seq (.define (.arg (.ident t!"elem") .none) (.call (.sel (.ident t!"t") t!"Elem") .none))
    (.seq (.switch (.call (.sel (.ident t!"elem") t!"Kind") .none)
    (.case (.arg (.sel (.ident t!"reflect") t!"Uint8") .none)
    (.seq (.ret (.arg (.un .addr (.ident t!"bytesCodec")) .none))
    .skip)
    .skip))
    .skip))
    (.case (.arg (.sel (.ident t!"reflect") t!"Struct") .none)
    (.seq (.ret (.arg (.call (.sel (.ident t!"w") t!"structCodec") (.arg (.ident t!"t") .none)) .none))
    .skip)
    (.case (.arg (.sel (.ident t!"reflect") t!"Ptr") .none)
    (.seq (.ret (.arg (.call (.sel (.ident t!"w") t!"pointer") (.arg (.ident t!"t") (.arg (.ident t!"conf") .none))) .none))
    .skip)
    .skip))))))))))))
    (.seq (.expr (.call (.ident t!"panic") (.arg (.bin .add (.str t!"unsupported type: ") (.call (.sel (.ident t!"t") t!"String") .none)) .none)))
    .skip))))

/-- walker.go:77-121 -/
def src_structCodec : FuncDecl where
  recv := some (t!"w", (.un .deref (.ident t!"walker")))
  name := t!"structCodec"
  params := [(t!"t", (.sel (.ident t!"reflect") t!"Type"))]
  results := [(t!"", (.un .deref (.ident t!"codec")))]
  body :=
    (.seq (.ite (.define (.arg (.ident t!"c") (.arg (.ident t!"ok") .none)) (.call (.sel (.ident t!"codecCache") t!"Load") (.arg (.call (.ident t!"pointer") (.arg (.ident t!"t") .none)) .none))) (.ident t!"ok")
    (.seq (.ret (.arg (.sel (.ident t!"c") t!"(*codec)") .none))
    .skip)
    .skip)
    (.seq (.ite (.define (.arg (.ident t!"c") (.arg (.ident t!"ok") .none)) (.index (.sel (.ident t!"w") t!"codecs") (.ident t!"t"))) (.ident t!"ok")
    (.seq (.ret (.arg (.ident t!"c") .none))
    .skip)
    .skip)
    (.seq (.define (.arg (.ident t!"c") .none) (.call (.ident t!"new") (.arg (.ident t!"codec") .none)))
    (.seq (.assign (.arg (.index (.sel (.ident t!"w") t!"codecs") (.ident t!"t")) .none) (.arg (.ident t!"c") .none))
    (.seq (.define (.arg (.ident t!"elem") .none) (.call (.sel (.ident t!"t") t!"Elem") .none))
    (.seq (.define (.arg (.ident t!"info") .none) (.call (.sel (.ident t!"w") t!"structInfo") (.arg (.ident t!"elem") .none)))
    (.seq (.assign (.arg (.sel (.ident t!"c") t!"size") .none) (.arg (.ident t!"func#") .none))
    (.seq (.assign (.arg (.sel (.ident t!"c") t!"encode") .none) (.arg (.ident t!"func##") .none))
    (.seq (.assign (.arg (.sel (.ident t!"c") t!"decode") .none) (.arg (.ident t!"func###") .none))
    (.seq (.define (.arg (.ident t!"actualCodec") (.arg (.ident t!"_") .none)) (.call (.sel (.ident t!"codecCache") t!"LoadOrStore") (.arg (.call (.ident t!"pointer") (.arg (.ident t!"t") .none)) (.arg (.ident t!"c") .none))))
    (.seq (.ret (.arg (.sel (.ident t!"actualCodec") t!"(*codec)") .none))
    .skip)))))))))))

/-- walker.go:123-125 -/
def src_baseKindOf : FuncDecl where
  recv := none
  name := t!"baseKindOf"
  params := [(t!"t", (.sel (.ident t!"reflect") t!"Type"))]
  results := [(t!"", (.sel (.ident t!"reflect") t!"Kind"))]
  body :=
    (.seq (.ret (.arg (.call (.sel (.call (.ident t!"baseTypeOf") (.arg (.ident t!"t") .none)) t!"Kind") .none) .none))
    .skip)

/-- walker.go:127-132 -/
def src_baseTypeOf : FuncDecl where
  recv := none
  name := t!"baseTypeOf"
  params := [(t!"t", (.sel (.ident t!"reflect") t!"Type"))]
  results := [(t!"", (.sel (.ident t!"reflect") t!"Type"))]
  body :=
    (.seq (.loop .skip (.bin .eq (.call (.sel (.ident t!"t") t!"Kind") .none) (.sel (.ident t!"reflect") t!"Ptr")) .skip
    (.seq (.assign (.arg (.ident t!"t") .none) (.arg (.call (.sel (.ident t!"t") t!"Elem") .none) .none))
    .skip))
    (.seq (.ret (.arg (.ident t!"t") .none))
    .skip))

/-- walker.go:134-276 -/
def src_structInfo : FuncDecl where
  recv := some (t!"w", (.un .deref (.ident t!"walker")))
  name := t!"structInfo"
  params := [(t!"t", (.sel (.ident t!"reflect") t!"Type"))]
  results := [(t!"", (.un .deref (.ident t!"structInfo")))]
  body :=
    (.seq (.ite (.define (.arg (.ident t!"info") (.arg (.ident t!"ok") .none)) (.call (.sel (.ident t!"structInfoCache") t!"Load") (.arg (.call (.ident t!"pointer") (.arg (.ident t!"t") .none)) .none))) (.ident t!"ok")
    (.seq (.ret (.arg (.ident t!"info") .none))
    .skip)
    .skip)
    (.seq (.ite (.define (.arg (.ident t!"i") (.arg (.ident t!"ok") .none)) (.index (.sel (.ident t!"w") t!"infos") (.ident t!"t"))) (.ident t!"ok")
    (.seq (.ret (.arg (.ident t!"i") .none))
    .skip)
    .skip)
    (.seq (.define (.arg (.ident t!"info") .none) (.call (.ident t!"new") (.arg (.ident t!"structInfo") .none)))
    (.seq (.assign (.arg (.index (.sel (.ident t!"w") t!"infos") (.ident t!"t")) .none) (.arg (.ident t!"info") .none))
    (.seq (.define (.arg (.ident t!"numField") .none) (.call (.sel (.ident t!"t") t!"NumField") .none))
    (.seq (.define (.arg (.ident t!"fields") .none) (.call (.ident t!"make") (.arg (.un .sliceOf (.un .deref (.ident t!"structField"))) (.arg (.num 0) (.arg (.ident t!"numField") .none)))))
    (.seq (.loop (.define (.arg (.ident t!"i") .none) (.num 0)) (.bin .lt (.ident t!"i") (.ident t!"numField")) (.opAssign .add (.ident t!"i") (.num 1))
    (.seq (.define (.arg (.ident t!"f") .none) (.call (.sel (.ident t!"t") t!"Field") (.arg (.ident t!"i") .none)))
    (.seq (.ite .skip (.bin .ne (.sel (.ident t!"f") t!"PkgPath") (.str t!""))
    (.seq .cont
    .skip)
    .skip)
    (.seq (.define (.arg (.ident t!"tag") (.arg (.ident t!"ok") .none)) (.call (.sel (.sel (.ident t!"f") t!"Tag") t!"Lookup") (.arg (.str t!"protobuf") .none)))
    (.seq (.ite .skip (.un .not (.ident t!"ok"))
    (.seq .cont
    .skip)
    .skip)
    (.seq (.define (.arg (.ident t!"field") .none) (.un .addr (.lit (.ident t!"structField") (.arg (.kv (.ident t!"offset") (.sel (.ident t!"f") t!"Offset")) .none))))
    (.seq (.define (.arg (.ident t!"t") (.arg (.ident t!"err") .none)) (.call (.ident t!"parseStructTag") (.arg (.ident t!"tag") .none)))
    (.seq (.ite .skip (.bin .ne (.ident t!"err") (.ident t!"nil"))
    (.seq (.expr (.call (.ident t!"panic") (.arg (.ident t!"err") .none)))
    .skip)
    .skip)
    (.seq (.assign (.arg (.sel (.ident t!"field") t!"wiretag") .none) (.arg (.bin .or (.bin .shl (.call (.ident t!"uint64") (.arg (.sel (.ident t!"t") t!"fieldNumber") .none)) (.num 3)) (.call (.ident t!"uint64") (.arg (.sel (.ident t!"t") t!"wireType") .none))) .none))
    (.seq (.switch (.sel (.ident t!"t") t!"wireType")
    (.case (.arg (.ident t!"fixed32") .none)
    (.seq (.switch (.sel (.ident t!"f") t!"Type")
    (.case (.arg (.ident t!"optionFloat32Type") .none)
    (.seq (.assign (.arg (.sel (.ident t!"field") t!"codec") .none) (.arg (.un .addr (.ident t!"float32OptionCodec")) .none))
    .skip)
    (.case (.arg (.ident t!"optionUInt32Type") .none)
    (.seq (.assign (.arg (.sel (.ident t!"field") t!"codec") .none) (.arg (.un .addr (.ident t!"fixed32OptionCodec")) .none))
    .skip)
    .skip)))
    (.seq (.switch (.call (.ident t!"baseKindOf") (.arg (.sel (.ident t!"f") t!"Type") .none))
    (.case (.arg (.sel (.ident t!"reflect") t!"Uint32") .none)
    (.seq (.assign (.arg (.sel (.ident t!"field") t!"codec") .none) (.arg (.un .addr (.ident t!"fixed32Codec")) .none))
    .skip)
    (.case (.arg (.sel (.ident t!"reflect") t!"Float32") .none)
    (.seq (.assign (.arg (.sel (.ident t!"field") t!"codec") .none) (.arg (.un .addr (.ident t!"float32Codec")) .none))
    .skip)
    .skip)))
    .skip))
    (.case (.arg (.ident t!"fixed64") .none)
    (.seq (.switch (.sel (.ident t!"f") t!"Type")
    (.case (.arg (.ident t!"optionUInt64Type") .none)
    (.seq (.assign (.arg (.sel (.ident t!"field") t!"codec") .none) (.arg (.un .addr (.ident t!"fixed64OptionCodec")) .none))
    .skip)
    (.case (.arg (.ident t!"optionFloat64Type") .none)
    (.seq (.assign (.arg (.sel (.ident t!"field") t!"codec") .none) (.arg (.un .addr (.ident t!"float64OptionCodec")) .none))
    .skip)
    .skip)))
    (.seq (.switch (.call (.ident t!"baseKindOf") (.arg (.sel (.ident t!"f") t!"Type") .none))
    (.case (.arg (.sel (.ident t!"reflect") t!"Uint64") .none)
    (.seq (.assign (.arg (.sel (.ident t!"field") t!"codec") .none) (.arg (.un .addr (.ident t!"fixed64Codec")) .none))
    .skip)
    (.case (.arg (.sel (.ident t!"reflect") t!"Float64") .none)
    (.seq (.assign (.arg (.sel (.ident t!"field") t!"codec") .none) (.arg (.un .addr (.ident t!"float64Codec")) .none))
    .skip)
    .skip)))
    .skip))
    .skip)))
    (.seq (.ite .skip (.bin .eq (.sel (.ident t!"field") t!"codec") (.ident t!"nil"))
    (.seq (.switch (.sel (.ident t!"f") t!"Type")
    (.case (.arg (.ident t!"optionBoolType") .none)
    (.seq (.assign (.arg (.sel (.ident t!"field") t!"codec") .none) (.arg (.un .addr (.ident t!"boolOptionCodec")) .none))
    .skip)
    (.case (.arg (.ident t!"optionInt32Type") .none)
    (.seq (.assign (.arg (.sel (.ident t!"field") t!"codec") .none) (.arg (.un .addr (.ident t!"int32OptionCodec")) .none))
    (.seq (.ite .skip (.sel (.ident t!"t") t!"zigzag")
    (.seq (.assign (.arg (.sel (.ident t!"field") t!"codec") .none) (.arg (.un .addr (.ident t!"zigzag32OptionCodec")) .none))
    .skip)
    .skip)
    .skip))
    (.case (.arg (.ident t!"optionInt64Type") .none)
    (.seq (.assign (.arg (.sel (.ident t!"field") t!"codec") .none) (.arg (.un .addr (.ident t!"int64OptionCodec")) .none))
    (.seq (.ite .skip (.sel (.ident t!"t") t!"zigzag")
    (.seq (.assign (.arg (.sel (.ident t!"field") t!"codec") .none) (.arg (.un .addr (.ident t!"zigzag64OptionCodec")) .none))
    .skip)
    .skip)
    .skip))
    (.case (.arg (.ident t!"optionUInt32Type") .none)
    (.seq (.assign (.arg (.sel (.ident t!"field") t!"codec") .none) (.arg (.un .addr (.ident t!"uint32OptionCodec")) .none))
    .skip)
    (.case (.arg (.ident t!"optionUInt64Type") .none)
    (.seq (.assign (.arg (.sel (.ident t!"field") t!"codec") .none) (.arg (.un .addr (.ident t!"uint64OptionCodec")) .none))
    .skip)
    (.case (.arg (.ident t!"optionStringType") .none)
    (.seq (.assign (.arg (.sel (.ident t!"field") t!"codec") .none) (.arg (.un .addr (.ident t!"stringOptionCodec")) .none))
    .skip)
    .skip)))))))
    .skip)
    .skip)
    (.seq (.ite .skip (.bin .eq (.sel (.ident t!"field") t!"codec") (.ident t!"nil"))
    (.seq (.define (.arg (.ident t!"conf") .none) (.un .addr (.lit (.ident t!"walkerConfig") (.arg (.kv (.ident t!"zigzag") (.sel (.ident t!"t") t!"zigzag")) .none))))
    (.seq (.switch (.call (.ident t!"baseKindOf") (.arg (.sel (.ident t!"f") t!"Type") .none))
    (.case (.arg (.sel (.ident t!"reflect") t!"Struct") .none)
    (.seq (.assign (.arg (.sel (.ident t!"field") t!"codec") .none) (.arg (.call (.sel (.ident t!"w") t!"codec") (.arg (.sel (.ident t!"f") t!"Type") (.arg (.ident t!"conf") .none))) .none))
    .skip)
    (.case (.arg (.sel (.ident t!"reflect") t!"Slice") .none)
    (.seq (.define (.arg (.ident t!"elem") .none) (.call (.sel (.sel (.ident t!"f") t!"Type") t!"Elem") .none))
    (.seq (.ite .skip (.bin .eq (.call (.sel (.ident t!"elem") t!"Kind") .none) (.sel (.ident t!"reflect") t!"Uint8"))
    (.seq (.assign (.arg (.sel (.ident t!"field") t!"codec") .none) (.arg (.un .addr (.ident t!"bytesCodec")) .none))
    .skip)
    (.seq (.assign (.arg (.sel (.ident t!"conf") t!"required") .none) (.arg (.ident t!"true") .none))
    (.seq (.assign (.arg (.sel (.ident t!"field") t!"codec") .none) (.arg (.call (.sel (.ident t!"w") t!"codec") (.arg (.ident t!"elem") (.arg (.ident t!"conf") .none))) .none))
    (.seq (.assign (.arg (.sel (.ident t!"field") t!"codec") .none) (.arg (.call (.ident t!"sliceCodecOf") (.arg (.sel (.ident t!"f") t!"Type") (.arg (.sel (.ident t!"field") t!"codec") (.arg (.ident t!"w") .none)))) .none))
    .skip))))
    .skip))
    (.case (.arg (.sel (.ident t!"reflect") t!"Map") .none)
    (.seq (.assign (.arg (.sel (.ident t!"conf") t!"required") .none) (.arg (.ident t!"true") .none))
    (.seq (.define (.arg (.ident t!"key") (.arg (.ident t!"val") .none)) (.call (.ident t!"(,)") (.arg (.call (.sel (.sel (.ident t!"f") t!"Type") t!"Key") .none) (.arg (.call (.sel (.sel (.ident t!"f") t!"Type") t!"Elem") .none) .none))))
    (.seq (.define (.arg (.ident t!"m") .none) (.un .addr (.lit (.ident t!"mapField") (.arg (.kv (.ident t!"wiretag") (.sel (.ident t!"field") t!"wiretag")) .none))))
    (.seq (.define (.arg (.ident t!"t") (.arg (.ident t!"_") .none)) (.call (.ident t!"parseStructTag") (.arg (.call (.sel (.sel (.ident t!"f") t!"Tag") t!"Get") (.arg (.str t!"protobuf_key") .none)) .none)))
    (.seq (.define (.arg (.ident t!"keyField") .none) (.un .addr (.lit (.ident t!"structField") (.arg (.kv (.ident t!"wiretag") (.bin .or (.bin .shl (.call (.ident t!"uint64") (.arg (.sel (.ident t!"t") t!"fieldNumber") .none)) (.num 3)) (.call (.ident t!"uint64") (.arg (.sel (.ident t!"t") t!"wireType") .none)))) .none))))
    (.seq (.assign (.arg (.sel (.ident t!"keyField") t!"tagsize") .none) (.arg (.call (.ident t!"sizeOfVarint") (.arg (.sel (.ident t!"keyField") t!"wiretag") .none)) .none))
    (.seq (.assign (.arg (.sel (.ident t!"conf") t!"zigzag") .none) (.arg (.sel (.ident t!"t") t!"zigzag") .none))
    (.seq (.assign (.arg (.sel (.ident t!"keyField") t!"codec") .none) (.arg (.call (.sel (.ident t!"w") t!"codec") (.arg (.ident t!"key") (.arg (.ident t!"conf") .none))) .none))
    (.seq (.assign (.arg (.ident t!"t") (.arg (.ident t!"_") .none)) (.arg (.call (.ident t!"parseStructTag") (.arg (.call (.sel (.sel (.ident t!"f") t!"Tag") t!"Get") (.arg (.str t!"protobuf_val") .none)) .none)) .none))
    (.seq (.define (.arg (.ident t!"valFiled") .none) (.un .addr (.lit (.ident t!"structField") (.arg (.kv (.ident t!"wiretag") (.bin .or (.bin .shl (.call (.ident t!"uint64") (.arg (.sel (.ident t!"t") t!"fieldNumber") .none)) (.num 3)) (.call (.ident t!"uint64") (.arg (.sel (.ident t!"t") t!"wireType") .none)))) .none))))
    (.seq (.assign (.arg (.sel (.ident t!"valFiled") t!"tagsize") .none) (.arg (.call (.ident t!"sizeOfVarint") (.arg (.sel (.ident t!"valFiled") t!"wiretag") .none)) .none))
    (.seq (.assign (.arg (.sel (.ident t!"conf") t!"zigzag") .none) (.arg (.sel (.ident t!"t") t!"zigzag") .none))
    (.seq (.assign (.arg (.sel (.ident t!"valFiled") t!"codec") .none) (.arg (.call (.sel (.ident t!"w") t!"codec") (.arg (.ident t!"val") (.arg (.ident t!"conf") .none))) .none))
    (.seq (.assign (.arg (.sel (.ident t!"m") t!"keyField") .none) (.arg (.ident t!"keyField") .none))
    (.seq (.assign (.arg (.sel (.ident t!"m") t!"valField") .none) (.arg (.ident t!"valFiled") .none))
    (.seq (.assign (.arg (.sel (.ident t!"field") t!"codec") .none) (.arg (.call (.sel (.ident t!"w") t!"mapCodec") (.arg (.sel (.ident t!"f") t!"Type") (.arg (.ident t!"m") .none))) .none))
    .skip))))))))))))))))
    (.default (.seq (.assign (.arg (.sel (.ident t!"field") t!"codec") .none) (.arg (.call (.sel (.ident t!"w") t!"codec") (.arg (.sel (.ident t!"f") t!"Type") (.arg (.ident t!"conf") .none))) .none))
    .skip) .skip)))))
    .skip))
    .skip)
    (.seq (.assign (.arg (.sel (.ident t!"field") t!"tagsize") .none) (.arg (.call (.ident t!"sizeOfVarint") (.arg (.sel (.ident t!"field") t!"wiretag") .none)) .none))
    (.seq (.assign (.arg (.ident t!"fields") .none) (.arg (.call (.ident t!"append") (.arg (.ident t!"fields") (.arg (.un .addr (.ident t!"field")) .none))) .none))
    .skip))))))))))))))
    (.seq (.define (.arg (.ident t!"fields2") .none) (.call (.ident t!"make") (.arg (.un .sliceOf (.un .deref (.ident t!"structField"))) (.arg (.call (.ident t!"len") (.arg (.ident t!"fields") .none)) .none))))
    (.seq (.expr (.call (.ident t!"copy") (.arg (.ident t!"fields2") (.arg (.ident t!"fields") .none))))
    (.seq (.assign (.arg (.sel (.ident t!"info") t!"fields") .none) (.arg (.ident t!"fields2") .none))
    (.seq (.assign (.arg (.sel (.ident t!"info") t!"fieldIndex") .none) (.arg (.call (.ident t!"make") (.arg (.bin .mul (.index (.ident t!"map[]") (.ident t!"fieldNumber")) (.ident t!"structField")) (.arg (.call (.ident t!"len") (.arg (.sel (.ident t!"info") t!"fields") .none)) .none))) .none))
    (.seq (.range t!"_" t!"f" (.sel (.ident t!"info") t!"fields")
    (.seq (.assign (.arg (.index (.sel (.ident t!"info") t!"fieldIndex") (.call (.sel (.ident t!"f") t!"fieldNumber") .none)) .none) (.arg (.ident t!"f") .none))
    .skip))
    (.seq (.expr (.call (.sel (.ident t!"structInfoCache") t!"Store") (.arg (.call (.ident t!"pointer") (.arg (.ident t!"t") .none)) (.arg (.ident t!"info") .none))))
    (.seq (.ret (.arg (.ident t!"info") .none))
    .skip))))))))))))))

/-- walker.go:284-297 -/
def src_pointer : FuncDecl where
  recv := some (t!"w", (.un .deref (.ident t!"walker")))
  name := t!"pointer"
  params := [(t!"t", (.sel (.ident t!"reflect") t!"Type")), (t!"conf", (.un .deref (.ident t!"walkerConfig")))]
  results := [(t!"", (.un .deref (.ident t!"codec")))]
  body :=
    (.seq (.switch (.call (.sel (.call (.sel (.ident t!"t") t!"Elem") .none) t!"Kind") .none)
    (.case (.arg (.sel (.ident t!"reflect") t!"Struct") .none)
    (.seq (.ret (.arg (.call (.sel (.ident t!"w") t!"structCodec") (.arg (.ident t!"t") .none)) .none))
    .skip)
    .skip))
    (.seq (.define (.arg (.ident t!"p") .none) (.call (.ident t!"new") (.arg (.ident t!"codec") .none)))
    (.seq (.assign (.arg (.index (.sel (.ident t!"w") t!"codecs") (.ident t!"t")) .none) (.arg (.ident t!"p") .none))
    (.seq (.define (.arg (.ident t!"c") .none) (.call (.sel (.ident t!"w") t!"codec") (.arg (.call (.sel (.ident t!"t") t!"Elem") .none) (.arg (.ident t!"conf") .none))))
    (.seq (.assign (.arg (.sel (.ident t!"p") t!"size") .none) (.arg (.call (.ident t!"pointerSizeFuncOf") (.arg (.ident t!"t") (.arg (.ident t!"c") .none))) .none))
    (.seq (.assign (.arg (.sel (.ident t!"p") t!"encode") .none) (.arg (.call (.ident t!"pointerEncodeFuncOf") (.arg (.ident t!"t") (.arg (.ident t!"c") .none))) .none))
    (.seq (.assign (.arg (.sel (.ident t!"p") t!"decode") .none) (.arg (.call (.ident t!"pointerDecodeFuncOf") (.arg (.ident t!"t") (.arg (.ident t!"c") .none))) .none))
    (.seq (.ret (.arg (.ident t!"p") .none))
    .skip))))))))

/-- walker.go:299-340 -/
def src_required : FuncDecl where
  recv := some (t!"w", (.un .deref (.ident t!"walker")))
  name := t!"required"
  params := [(t!"t", (.sel (.ident t!"reflect") t!"Type")), (t!"conf", (.un .deref (.ident t!"walkerConfig")))]
  results := [(t!"", (.un .deref (.ident t!"codec")))]
  body :=
    (.seq (.ite (.define (.arg (.ident t!"c") (.arg (.ident t!"ok") .none)) (.index (.sel (.ident t!"w") t!"codecs") (.ident t!"t"))) (.ident t!"ok")
    (.seq (.ret (.arg (.ident t!"c") .none))
    .skip)
    .skip)
    (.seq (.switch (.call (.sel (.ident t!"t") t!"Kind") .none)
    (.case (.arg (.sel (.ident t!"reflect") t!"Bool") .none)
    (.seq (.ret (.arg (.un .addr (.ident t!"boolRequiredCodec")) .none))
    .skip)
    (.case (.arg (.sel (.ident t!"reflect") t!"Int32") .none)
    (.seq (.ite .skip (.sel (.ident t!"conf") t!"zigzag")
    (.seq (.ret (.arg (.un .addr (.ident t!"zigzag32RequiredCodec")) .none))
    .skip)
    .skip)
    (.seq (.ret (.arg (.un .addr (.ident t!"int32RequiredCodec")) .none))
    .skip))
    (.case (.arg (.sel (.ident t!"reflect") t!"Int64") .none)
    (.seq (.ite .skip (.sel (.ident t!"conf") t!"zigzag")
    (.seq (.ret (.arg (.un .addr (.ident t!"zigzag64RequiredCodec")) .none))
    .skip)
    .skip)
    (.seq (.ret (.arg (.un .addr (.ident t!"int64RequiredCodec")) .none))
    .skip))
    (.case (.arg (.sel (.ident t!"reflect") t!"Uint32") .none)
    (.seq (.ret (.arg (.un .addr (.ident t!"uint32RequiredCodec")) .none))
    .skip)
    (.case (.arg (.sel (.ident t!"reflect") t!"Uint64") .none)
    (.seq (.ret (.arg (.un .addr (.ident t!"uint64RequiredCodec")) .none))
    .skip)
    (.case (.arg (.sel (.ident t!"reflect") t!"Float32") .none)
    (.seq (.ret (.arg (.un .addr (.ident t!"float32RequiredCodec")) .none))
    .skip)
    (.case (.arg (.sel (.ident t!"reflect") t!"Float64") .none)
    (.seq (.ret (.arg (.un .addr (.ident t!"float64RequiredCodec")) .none))
    .skip)
    (.case (.arg (.sel (.ident t!"reflect") t!"String") .none)
    (.seq (.ret (.arg (.un .addr (.ident t!"stringRequiredCodec")) .none))
    .skip)
    (.case (.arg (.sel (.ident t!"reflect") t!"Slice") .none)
    (.seq (.define (.arg (.ident t!"elem") .none) (.call (.sel (.ident t!"t") t!"Elem") .none))
    (.seq (.switch (.call (.sel (.ident t!"elem") t!"Kind") .none)
    (.case (.arg (.sel (.ident t!"reflect") t!"Uint8") .none)
    (.seq (.ret (.arg (.un .addr (.ident t!"bytesCodec")) .none))
    .skip)
    .skip))
    .skip))
    (.case (.arg (.sel (.ident t!"reflect") t!"Struct") .none)
    (.seq (.expr (.call (.ident t!"panic") (.arg (.bin .add (.str t!"nested message must be pointer:") (.call (.sel (.ident t!"t") t!"String") .none)) .none)))
    .skip)
    (.case (.arg (.sel (.ident t!"reflect") t!"Ptr") .none)
    (.seq (.ret (.arg (.call (.sel (.ident t!"w") t!"pointer") (.arg (.ident t!"t") (.arg (.ident t!"conf") .none))) .none))
    .skip)
    .skip))))))))))))
    (.seq (.expr (.call (.ident t!"panic") (.arg (.bin .add (.str t!"unsupported type: ") (.call (.sel (.ident t!"t") t!"String") .none)) .none)))
    .skip)))

/-- walker.go:342-350 -/
def src_pointerSizeFuncOf : FuncDecl where
  recv := none
  name := t!"pointerSizeFuncOf"
  params := [(t!"_", (.sel (.ident t!"reflect") t!"Type")), (t!"c", (.un .deref (.ident t!"codec")))]
  results := [(t!"", (.ident t!"sizeFunc"))]
  body :=
    (.seq (.ret (.arg (.ident t!"func#") .none))
    .skip)

/-- walker.go:352-360 -/
def src_pointerEncodeFuncOf : FuncDecl where
  recv := none
  name := t!"pointerEncodeFuncOf"
  params := [(t!"_", (.sel (.ident t!"reflect") t!"Type")), (t!"c", (.un .deref (.ident t!"codec")))]
  results := [(t!"", (.ident t!"encodeFunc"))]
  body :=
    (.seq (.ret (.arg (.ident t!"func#") .none))
    .skip)

/-- walker.go:362-371 -/
def src_pointerDecodeFuncOf : FuncDecl where
  recv := none
  name := t!"pointerDecodeFuncOf"
  params := [(t!"t", (.sel (.ident t!"reflect") t!"Type")), (t!"c", (.un .deref (.ident t!"codec")))]
  results := [(t!"", (.ident t!"decodeFunc"))]
  body :=
    (.seq (.assign (.arg (.ident t!"t") .none) (.arg (.call (.sel (.ident t!"t") t!"Elem") .none) .none))
    (.seq (.ret (.arg (.ident t!"func#") .none))
    .skip))

/-- slice.go:13-29 -/
def src_sliceCodecOf : FuncDecl where
  recv := none
  name := t!"sliceCodecOf"
  params := [(t!"t", (.sel (.ident t!"reflect") t!"Type")), (t!"c", (.un .deref (.ident t!"codec"))), (t!"w", (.un .deref (.ident t!"walker")))]
  results := [(t!"", (.un .deref (.ident t!"codec")))]
  body :=
    (.seq (.ite (.define (.arg (.ident t!"loaded") (.arg (.ident t!"ok") .none)) (.call (.sel (.ident t!"sliceMap") t!"Load") (.arg (.ident t!"c") .none))) (.ident t!"ok")
    (.seq (.ret (.arg (.sel (.ident t!"loaded") t!"(*codec)") .none))
    .skip)
    .skip)
    (.seq (.ite .skip (.bin .ne (.index (.sel (.ident t!"w") t!"codecs") (.ident t!"t")) (.ident t!"nil"))
    (.seq (.ret (.arg (.index (.sel (.ident t!"w") t!"codecs") (.ident t!"t")) .none))
    .skip)
    .skip)
    (.seq (.define (.arg (.ident t!"s") .none) (.call (.ident t!"new") (.arg (.ident t!"codec") .none)))
    (.seq (.assign (.arg (.index (.sel (.ident t!"w") t!"codecs") (.ident t!"t")) .none) (.arg (.ident t!"s") .none))
    (.seq (.assign (.arg (.sel (.ident t!"s") t!"size") .none) (.arg (.call (.ident t!"sliceSizeFuncOf") (.arg (.ident t!"t") (.arg (.ident t!"c") .none))) .none))
    (.seq (.assign (.arg (.sel (.ident t!"s") t!"encode") .none) (.arg (.call (.ident t!"sliceEncodeFuncOf") (.arg (.ident t!"t") (.arg (.ident t!"c") .none))) .none))
    (.seq (.assign (.arg (.sel (.ident t!"s") t!"decode") .none) (.arg (.call (.ident t!"sliceDecodeFuncOf") (.arg (.ident t!"t") (.arg (.ident t!"c") .none))) .none))
    (.seq (.define (.arg (.ident t!"actualCodec") (.arg (.ident t!"_") .none)) (.call (.sel (.ident t!"sliceMap") t!"LoadOrStore") (.arg (.ident t!"c") (.arg (.ident t!"s") .none))))
    (.seq (.ret (.arg (.sel (.ident t!"actualCodec") t!"(*codec)") .none))
    .skip)))))))))

/-- slice.go:31-43 -/
def src_sliceSizeFuncOf : FuncDecl where
  recv := none
  name := t!"sliceSizeFuncOf"
  params := [(t!"t", (.sel (.ident t!"reflect") t!"Type")), (t!"c", (.un .deref (.ident t!"codec")))]
  results := [(t!"", (.ident t!"sizeFunc"))]
  body :=
    (.seq (.define (.arg (.ident t!"elemSize") .none) (.call (.ident t!"alignedSize") (.arg (.call (.sel (.ident t!"t") t!"Elem") .none) .none)))
    (.seq (.ret (.arg (.ident t!"func#") .none))
    .skip))

/-- slice.go:45-56 -/
def src_sliceEncodeFuncOf : FuncDecl where
  recv := none
  name := t!"sliceEncodeFuncOf"
  params := [(t!"t", (.sel (.ident t!"reflect") t!"Type")), (t!"c", (.un .deref (.ident t!"codec")))]
  results := [(t!"", (.ident t!"encodeFunc"))]
  body :=
    (.seq (.define (.arg (.ident t!"elemSize") .none) (.call (.ident t!"alignedSize") (.arg (.call (.sel (.ident t!"t") t!"Elem") .none) .none)))
    (.seq (.ret (.arg (.ident t!"func#") .none))
    .skip))

/-- slice.go:58-75 -/
def src_sliceDecodeFuncOf : FuncDecl where
  recv := none
  name := t!"sliceDecodeFuncOf"
  params := [(t!"t", (.sel (.ident t!"reflect") t!"Type")), (t!"c", (.un .deref (.ident t!"codec")))]
  results := [(t!"", (.ident t!"decodeFunc"))]
  body :=
    (.seq (.define (.arg (.ident t!"elemType") .none) (.call (.sel (.ident t!"t") t!"Elem") .none))
    (.seq (.define (.arg (.ident t!"elemSize") .none) (.call (.ident t!"alignedSize") (.arg (.ident t!"elemType") .none)))
    (.seq (.ret (.arg (.ident t!"func#") .none))
    .skip)))

/-- map.go:20-28 -/
def src_mapCodec : FuncDecl where
  recv := some (t!"w", (.un .deref (.ident t!"walker")))
  name := t!"mapCodec"
  params := [(t!"t", (.sel (.ident t!"reflect") t!"Type")), (t!"f", (.un .deref (.ident t!"mapField")))]
  results := [(t!"", (.un .deref (.ident t!"codec")))]
  body :=
    (.seq (.define (.arg (.ident t!"m") .none) (.call (.ident t!"new") (.arg (.ident t!"codec") .none)))
    (.seq (.assign (.arg (.index (.sel (.ident t!"w") t!"codecs") (.ident t!"t")) .none) (.arg (.ident t!"m") .none))
    (.seq (.assign (.arg (.sel (.ident t!"m") t!"size") .none) (.arg (.call (.ident t!"mapSizeFuncOf") (.arg (.ident t!"t") (.arg (.ident t!"f") .none))) .none))
    (.seq (.assign (.arg (.sel (.ident t!"m") t!"encode") .none) (.arg (.call (.ident t!"mapEncodeFuncOf") (.arg (.ident t!"t") (.arg (.ident t!"f") .none))) .none))
    (.seq (.assign (.arg (.sel (.ident t!"m") t!"decode") .none) (.arg (.call (.ident t!"mapDecodeFuncOf") (.arg (.ident t!"t") (.arg (.ident t!"f") (.arg (.ident t!"w") .none)))) .none))
    (.seq (.ret (.arg (.ident t!"m") .none))
    .skip))))))

/-- map.go:30-56 -/
def src_mapSizeFuncOf : FuncDecl where
  recv := none
  name := t!"mapSizeFuncOf"
  params := [(t!"t", (.sel (.ident t!"reflect") t!"Type")), (t!"f", (.un .deref (.ident t!"mapField")))]
  results := [(t!"", (.ident t!"sizeFunc"))]
  body :=
    (.seq (.define (.arg (.ident t!"mapTagSize") .none) (.call (.ident t!"sizeOfVarint") (.arg (.sel (.ident t!"f") t!"wiretag") .none)))
    (.seq (.define (.arg (.ident t!"keyCodec") .none) (.sel (.sel (.ident t!"f") t!"keyField") t!"codec"))
    (.seq (.define (.arg (.ident t!"valCodec") .none) (.sel (.sel (.ident t!"f") t!"valField") t!"codec"))
    (.seq (.ret (.arg (.ident t!"func#") .none))
    .skip))))

/-- map.go:58-94 -/
def src_mapEncodeFuncOf : FuncDecl where
  recv := none
  name := t!"mapEncodeFuncOf"
  params := [(t!"t", (.sel (.ident t!"reflect") t!"Type")), (t!"f", (.un .deref (.ident t!"mapField")))]
  results := [(t!"", (.ident t!"encodeFunc"))]
  body :=
    (.seq (.define (.arg (.ident t!"mapTag") .none) (.call (.ident t!"appendVarint") (.arg (.ident t!"nil") (.arg (.sel (.ident t!"f") t!"wiretag") .none))))
    (.seq (.define (.arg (.ident t!"zero") .none) (.call (.ident t!"append") (.arg (.ident t!"mapTag") (.arg (.num 0) .none))))
    (.seq (.define (.arg (.ident t!"keyCodec") .none) (.sel (.sel (.ident t!"f") t!"keyField") t!"codec"))
    (.seq (.define (.arg (.ident t!"valCodec") .none) (.sel (.sel (.ident t!"f") t!"valField") t!"codec"))
    (.seq (.ret (.arg (.ident t!"func#") .none))
    .skip)))))

/-- map.go:100-144 -/
def src_mapDecodeFuncOf : FuncDecl where
  recv := none
  name := t!"mapDecodeFuncOf"
  params := [(t!"t", (.sel (.ident t!"reflect") t!"Type")), (t!"m", (.un .deref (.ident t!"mapField"))), (t!"w", (.un .deref (.ident t!"walker")))]
  results := [(t!"", (.ident t!"decodeFunc"))]
  body :=
    (.seq (.define (.arg (.ident t!"structType") .none) (.call (.sel (.ident t!"reflect") t!"StructOf") (.arg (.call (.ident t!"StructField[]") (.arg (.un .addr (.lit (.ident t!"StructField") (.arg (.kv (.ident t!"Name") (.str t!"Key")) (.arg (.kv (.ident t!"Type") (.call (.sel (.ident t!"t") t!"Key") .none)) (.arg (.kv (.ident t!"Tag") (.call (.ident t!"formatWireTag") (.arg (.sel (.sel (.ident t!"m") t!"keyField") t!"wiretag") .none))) .none))))) (.arg (.un .addr (.lit (.ident t!"StructField") (.arg (.kv (.ident t!"Name") (.str t!"Elem")) (.arg (.kv (.ident t!"Type") (.call (.sel (.ident t!"t") t!"Elem") .none)) (.arg (.kv (.ident t!"Tag") (.call (.ident t!"formatWireTag") (.arg (.sel (.sel (.ident t!"m") t!"valField") t!"wiretag") .none))) .none))))) .none))) .none)))
    (.seq (.define (.arg (.ident t!"info") .none) (.call (.sel (.ident t!"w") t!"structInfo") (.arg (.ident t!"structType") .none)))
    (.seq (.define (.arg (.ident t!"structPool") .none) (.call (.ident t!"new") (.arg (.sel (.ident t!"sync") t!"Pool") .none)))
    (.seq (.define (.arg (.ident t!"structZero") .none) (.call (.ident t!"pointer") (.arg (.call (.sel (.call (.sel (.ident t!"reflect") t!"Zero") (.arg (.ident t!"structType") .none)) t!"Interface") .none) .none)))
    (.seq (.define (.arg (.ident t!"valueType") .none) (.call (.sel (.ident t!"t") t!"Elem") .none))
    (.seq (.define (.arg (.ident t!"valueOffset") .none) (.sel (.call (.sel (.ident t!"structType") t!"Field") (.arg (.num 1) .none)) t!"Offset"))
    (.seq (.define (.arg (.ident t!"mtype") .none) (.call (.ident t!"pointer") (.arg (.ident t!"t") .none)))
    (.seq (.define (.arg (.ident t!"stype") .none) (.call (.ident t!"pointer") (.arg (.ident t!"structType") .none)))
    (.seq (.define (.arg (.ident t!"vtype") .none) (.call (.ident t!"pointer") (.arg (.ident t!"valueType") .none)))
    (.seq (.ret (.arg (.ident t!"func#") .none))
    .skip))))))))))

/-- struct.go:159-223 -/
def src_parseStructTag : FuncDecl where
  recv := none
  name := t!"parseStructTag"
  params := [(t!"tag", (.ident t!"string"))]
  results := [(t!"", (.ident t!"structTag")), (t!"", (.ident t!"error"))]
  body :=
    (.seq (.define (.arg (.ident t!"t") .none) (.lit (.ident t!"structTag") .none))
    (.seq (.range t!"i" t!"f" (.call (.ident t!"splitFields") (.arg (.ident t!"tag") .none))
    (.seq (.switch (.ident t!"i")
    (.case (.arg (.num 0) .none)
    (.seq (.switch (.ident t!"f")
    (.case (.arg (.str t!"varint") .none)
    (.seq (.assign (.arg (.sel (.ident t!"t") t!"wireType") .none) (.arg (.ident t!"varint") .none))
    .skip)
    (.case (.arg (.str t!"bytes") .none)
    (.seq (.assign (.arg (.sel (.ident t!"t") t!"wireType") .none) (.arg (.ident t!"varlen") .none))
    .skip)
    (.case (.arg (.str t!"fixed32") .none)
    (.seq (.assign (.arg (.sel (.ident t!"t") t!"wireType") .none) (.arg (.ident t!"fixed32") .none))
    .skip)
    (.case (.arg (.str t!"fixed64") .none)
    (.seq (.assign (.arg (.sel (.ident t!"t") t!"wireType") .none) (.arg (.ident t!"fixed64") .none))
    .skip)
    (.case (.arg (.str t!"zigzag32") .none)
    (.seq (.assign (.arg (.sel (.ident t!"t") t!"wireType") .none) (.arg (.ident t!"varint") .none))
    (.seq (.assign (.arg (.sel (.ident t!"t") t!"zigzag") .none) (.arg (.ident t!"true") .none))
    .skip))
    (.case (.arg (.str t!"zigzag64") .none)
    (.seq (.assign (.arg (.sel (.ident t!"t") t!"wireType") .none) (.arg (.ident t!"varint") .none))
    (.seq (.assign (.arg (.sel (.ident t!"t") t!"zigzag") .none) (.arg (.ident t!"true") .none))
    .skip))
    (.default (.seq (.ret (.arg (.ident t!"t") (.arg (.call (.sel (.ident t!"fmt") t!"Errorf") (.arg (.str t!"unsupported wire type in struct tag %q: %s") (.arg (.ident t!"tag") (.arg (.ident t!"f") .none)))) .none)))
    .skip) .skip))))))))
    .skip)
    (.case (.arg (.num 1) .none)
    (.seq (.define (.arg (.ident t!"n") (.arg (.ident t!"err") .none)) (.call (.sel (.ident t!"strconv") t!"Atoi") (.arg (.ident t!"f") .none)))
    (.seq (.ite .skip (.bin .ne (.ident t!"err") (.ident t!"nil"))
    (.seq (.ret (.arg (.ident t!"t") (.arg (.call (.sel (.ident t!"fmt") t!"Errorf") (.arg (.str t!"unsupported field number in struct tag %q: %w") (.arg (.ident t!"tag") (.arg (.ident t!"err") .none)))) .none)))
    .skip)
    .skip)
    (.seq (.assign (.arg (.sel (.ident t!"t") t!"fieldNumber") .none) (.arg (.call (.ident t!"fieldNumber") (.arg (.ident t!"n") .none)) .none))
    .skip)))
    (.case (.arg (.num 2) .none)
    (.seq (.switch (.ident t!"f")
    (.case (.arg (.str t!"opt") .none)
    .skip
    (.case (.arg (.str t!"rep") .none)
    (.seq (.assign (.arg (.sel (.ident t!"t") t!"repeated") .none) (.arg (.ident t!"true") .none))
    .skip)
    (.default (.seq (.ret (.arg (.ident t!"t") (.arg (.call (.sel (.ident t!"fmt") t!"Errorf") (.arg (.str t!"unsupported field option in struct tag %q: %s") (.arg (.ident t!"tag") (.arg (.ident t!"f") .none)))) .none)))
    .skip) .skip))))
    .skip)
    (.default .skip .skip)))))
    .skip))
    (.seq (.ret (.arg (.ident t!"t") (.arg (.ident t!"nil") .none)))
    .skip)))

/-- struct.go:225-227 -/
def src_splitFields : FuncDecl where
  recv := none
  name := t!"splitFields"
  params := [(t!"s", (.ident t!"string"))]
  results := [(t!"", (.un .sliceOf (.ident t!"string")))]
  body :=
    (.seq (.ret (.arg (.call (.sel (.ident t!"strings") t!"Split") (.arg (.ident t!"s") (.arg (.str t!",") .none))) .none))
    .skip)

/-- proto.go:111-125 -/
def src_cachedStructInfoOf : FuncDecl where
  recv := none
  name := t!"cachedStructInfoOf"
  params := [(t!"t", (.sel (.ident t!"reflect") t!"Type"))]
  results := [(t!"", (.un .deref (.ident t!"structInfo")))]
  body :=
    (.seq (.define (.arg (.ident t!"c") (.arg (.ident t!"ok") .none)) (.call (.sel (.ident t!"structInfoCache") t!"Load") (.arg (.call (.ident t!"pointer") (.arg (.ident t!"t") .none)) .none)))
    (.seq (.ite .skip (.ident t!"ok")
    (.seq (.ret (.arg (.ident t!"c") .none))
    .skip)
    .skip)
    (.seq (.define (.arg (.ident t!"w") .none) (.un .addr (.lit (.ident t!"walker") (.arg (.kv (.ident t!"codecs") (.call (.ident t!"make") (.arg (.bin .mul (.index (.ident t!"map[]") (.sel (.ident t!"reflect") t!"Type")) (.ident t!"codec")) .none))) (.arg (.kv (.ident t!"infos") (.call (.ident t!"make") (.arg (.bin .mul (.index (.ident t!"map[]") (.sel (.ident t!"reflect") t!"Type")) (.ident t!"structInfo")) .none))) .none)))))
    (.seq (.define (.arg (.ident t!"info") .none) (.call (.sel (.ident t!"w") t!"structInfo") (.arg (.ident t!"t") .none)))
    (.seq (.define (.arg (.ident t!"actual") (.arg (.ident t!"_") .none)) (.call (.sel (.ident t!"structInfoCache") t!"LoadOrStore") (.arg (.call (.ident t!"pointer") (.arg (.ident t!"t") .none)) (.arg (.ident t!"info") .none))))
    (.seq (.ret (.arg (.ident t!"actual") .none))
    .skip))))))

end Pb.Go.WalkText
