import Verif.Model.Source
/-
The text of the functions that analyse types, as it is in /repo/proto, line by line. Written by tools/embed.py, which compares it with
/repo as well.
-/
namespace Pb.Go.WalkText

/-- proto/walker.go:29-75 -/
def codecGo : Text := lines [
  t!"func (w *walker) codec(t reflect.Type, conf *walkerConfig) *codec {",
  t!"\tif c, ok := w.codecs[t]; ok {",
  t!"\t\treturn c",
  t!"\t}",
  t!"\tif conf.required {",
  t!"\t\treturn w.required(t, conf)",
  t!"\t}",
  t!"\tswitch t.Kind() {",
  t!"\tcase reflect.Bool:",
  t!"\t\treturn &boolCodec",
  t!"\tcase reflect.Int32:",
  t!"\t\tif conf.zigzag {",
  t!"\t\t\treturn &zigzag32Codec",
  t!"\t\t}",
  t!"\t\treturn &int32Codec",
  t!"\tcase reflect.Int64:",
  t!"\t\tif conf.zigzag {",
  t!"\t\t\treturn &zigzag64Codec",
  t!"\t\t}",
  t!"\t\treturn &int64Codec",
  t!"\tcase reflect.Uint32:",
  t!"\t\treturn &uint32Codec",
  t!"\tcase reflect.Uint64:",
  t!"\t\treturn &uint64Codec",
  t!"\tcase reflect.Float32:",
  t!"\t\treturn &float32Codec",
  t!"\tcase reflect.Float64:",
  t!"\t\treturn &float64Codec",
  t!"\tcase reflect.String:",
  t!"\t\tif conf.required {",
  t!"\t\t\treturn &stringRequiredCodec",
  t!"\t\t}",
  t!"\t\treturn &stringCodec",
  t!"\tcase reflect.Slice:",
  t!"\t\telem := t.Elem()",
  t!"\t\tswitch elem.Kind() {",
  t!"\t\tcase reflect.Uint8:",
  t!"\t\t\treturn &bytesCodec",
  t!"\t\t}",
  t!"\tcase reflect.Struct:",
  t!"\t\treturn w.structCodec(t)",
  t!"\tcase reflect.Ptr:",
  t!"\t\treturn w.pointer(t, conf)",
  t!"\t}",
  t!"",
  t!"\tpanic(\"unsupported type: \" + t.String())",
  t!"}"]

/-- proto/walker.go:77-121 -/
def structCodecGo : Text := lines [
  t!"func (w *walker) structCodec(t reflect.Type) *codec {",
  t!"\tif c, ok := codecCache.Load(pointer(t)); ok {",
  t!"\t\treturn c.(*codec)",
  t!"\t}",
  t!"\tif c, ok := w.codecs[t]; ok {",
  t!"\t\treturn c",
  t!"\t}",
  t!"\tc := new(codec)",
  t!"\tw.codecs[t] = c",
  t!"\telem := t.Elem()",
  t!"\tinfo := w.structInfo(elem)",
  t!"\tc.size = func(p unsafe.Pointer, f *structField) int {",
  t!"\t\tp = deref(p)",
  t!"\t\tif p != nil {",
  t!"\t\t\tn := info.size(p)",
  t!"\t\t\tn += sizeOfVarint(uint64(n)) + f.tagsize",
  t!"\t\t\treturn n",
  t!"\t\t}",
  t!"\t\treturn 0",
  t!"\t}",
  t!"\tc.encode = func(b []byte, p unsafe.Pointer, f *structField) []byte {",
  t!"\t\tp = deref(p)",
  t!"\t\tif p != nil {",
  t!"\t\t\tb = appendVarint(b, f.wiretag)",
  t!"\t\t\tn := info.size(p)",
  t!"\t\t\tb = appendVarint(b, uint64(n))",
  t!"\t\t\treturn info.encode(b, p)",
  t!"\t\t}",
  t!"\t\treturn b",
  t!"\t}",
  t!"\tc.decode = func(b []byte, p unsafe.Pointer) (int, error) {",
  t!"\t\tv := (*unsafe.Pointer)(p)",
  t!"\t\tif *v == nil {",
  t!"\t\t\t*v = unsafe.Pointer(reflect.New(elem).Pointer())",
  t!"\t\t}",
  t!"\t\t_, n, err := decodeVarint(b)",
  t!"\t\tif err != nil {",
  t!"\t\t\treturn n, err",
  t!"\t\t}",
  t!"\t\tl, err := info.decode(b[n:], *v)",
  t!"\t\treturn n + l, err",
  t!"\t}",
  t!"\tactualCodec, _ := codecCache.LoadOrStore(pointer(t), c)",
  t!"\treturn actualCodec.(*codec)",
  t!"}"]

/-- proto/walker.go:123-125 -/
def baseKindOfGo : Text := lines [
  t!"func baseKindOf(t reflect.Type) reflect.Kind {",
  t!"\treturn baseTypeOf(t).Kind()",
  t!"}"]

/-- proto/walker.go:127-132 -/
def baseTypeOfGo : Text := lines [
  t!"func baseTypeOf(t reflect.Type) reflect.Type {",
  t!"\tfor t.Kind() == reflect.Ptr {",
  t!"\t\tt = t.Elem()",
  t!"\t}",
  t!"\treturn t",
  t!"}"]

/-- proto/walker.go:134-276 -/
def structInfoGo : Text := lines [
  t!"func (w *walker) structInfo(t reflect.Type) *structInfo {",
  t!"\tif info, ok := structInfoCache.Load(pointer(t)); ok {",
  t!"\t\treturn info",
  t!"\t}",
  t!"\tif i, ok := w.infos[t]; ok {",
  t!"\t\treturn i",
  t!"\t}",
  t!"",
  t!"\tinfo := new(structInfo)",
  t!"\tw.infos[t] = info",
  t!"\tnumField := t.NumField()",
  t!"\tfields := make([]*structField, 0, numField)",
  t!"\tfor i := 0; i < numField; i++ {",
  t!"\t\tf := t.Field(i)",
  t!"\t\tif f.PkgPath != \"\" {",
  t!"\t\t\tcontinue // unexported",
  t!"\t\t}",
  t!"",
  t!"\t\ttag, ok := f.Tag.Lookup(\"protobuf\")",
  t!"\t\tif !ok {",
  t!"\t\t\tcontinue // no tag",
  t!"\t\t}",
  t!"",
  t!"\t\tfield := structField{",
  t!"\t\t\toffset: f.Offset,",
  t!"\t\t}",
  t!"",
  t!"\t\tt, err := parseStructTag(tag)",
  t!"\t\tif err != nil {",
  t!"\t\t\tpanic(err)",
  t!"\t\t}",
  t!"\t\tfield.wiretag = uint64(t.fieldNumber)<<3 | uint64(t.wireType)",
  t!"\t\tswitch t.wireType {",
  t!"\t\tcase fixed32:",
  t!"\t\t\tswitch f.Type {",
  t!"\t\t\tcase optionFloat32Type:",
  t!"\t\t\t\tfield.codec = &float32OptionCodec",
  t!"\t\t\tcase optionUInt32Type:",
  t!"\t\t\t\tfield.codec = &fixed32OptionCodec",
  t!"\t\t\t}",
  t!"\t\t\tswitch baseKindOf(f.Type) {",
  t!"\t\t\tcase reflect.Uint32:",
  t!"\t\t\t\tfield.codec = &fixed32Codec",
  t!"\t\t\tcase reflect.Float32:",
  t!"\t\t\t\tfield.codec = &float32Codec",
  t!"\t\t\t}",
  t!"\t\tcase fixed64:",
  t!"\t\t\tswitch f.Type {",
  t!"\t\t\tcase optionUInt64Type:",
  t!"\t\t\t\tfield.codec = &fixed64OptionCodec",
  t!"\t\t\tcase optionFloat64Type:",
  t!"\t\t\t\tfield.codec = &float64OptionCodec",
  t!"\t\t\t}",
  t!"\t\t\tswitch baseKindOf(f.Type) {",
  t!"\t\t\tcase reflect.Uint64:",
  t!"\t\t\t\tfield.codec = &fixed64Codec",
  t!"\t\t\tcase reflect.Float64:",
  t!"\t\t\t\tfield.codec = &float64Codec",
  t!"\t\t\t}",
  t!"\t\t}",
  t!"\t\tif field.codec == nil {",
  t!"\t\t\tswitch f.Type {",
  t!"\t\t\tcase optionBoolType:",
  t!"\t\t\t\tfield.codec = &boolOptionCodec",
  t!"\t\t\tcase optionInt32Type:",
  t!"\t\t\t\tfield.codec = &int32OptionCodec",
  t!"\t\t\t\tif t.zigzag {",
  t!"\t\t\t\t\tfield.codec = &zigzag32OptionCodec",
  t!"\t\t\t\t}",
  t!"\t\t\tcase optionInt64Type:",
  t!"\t\t\t\tfield.codec = &int64OptionCodec",
  t!"\t\t\t\tif t.zigzag {",
  t!"\t\t\t\t\tfield.codec = &zigzag64OptionCodec",
  t!"\t\t\t\t}",
  t!"\t\t\tcase optionUInt32Type:",
  t!"\t\t\t\tfield.codec = &uint32OptionCodec",
  t!"\t\t\tcase optionUInt64Type:",
  t!"\t\t\t\tfield.codec = &uint64OptionCodec",
  t!"\t\t\tcase optionStringType:",
  t!"\t\t\t\tfield.codec = &stringOptionCodec",
  t!"\t\t\t}",
  t!"\t\t}",
  t!"\t\tif field.codec == nil {",
  t!"\t\t\tconf := &walkerConfig{",
  t!"\t\t\t\tzigzag: t.zigzag,",
  t!"\t\t\t\t// required: t.required,",
  t!"\t\t\t}",
  t!"\t\t\tswitch baseKindOf(f.Type) {",
  t!"\t\t\tcase reflect.Struct:",
  t!"\t\t\t\tfield.codec = w.codec(f.Type, conf)",
  t!"",
  t!"\t\t\tcase reflect.Slice:",
  t!"\t\t\t\telem := f.Type.Elem()",
  t!"\t\t\t\tif elem.Kind() == reflect.Uint8 { // []byte",
  t!"\t\t\t\t\tfield.codec = &bytesCodec",
  t!"\t\t\t\t} else {",
  t!"\t\t\t\t\tconf.required = true",
  t!"\t\t\t\t\tfield.codec = w.codec(elem, conf)",
  t!"\t\t\t\t\tfield.codec = sliceCodecOf(f.Type, field.codec, w)",
  t!"\t\t\t\t}",
  t!"",
  t!"\t\t\tcase reflect.Map:",
  t!"\t\t\t\tconf.required = true // map key and val should be encoded always",
  t!"\t\t\t\tkey, val := f.Type.Key(), f.Type.Elem()",
  t!"\t\t\t\tm := &mapField{wiretag: field.wiretag}",
  t!"",
  t!"\t\t\t\tt, _ := parseStructTag(f.Tag.Get(\"protobuf_key\"))",
  t!"\t\t\t\tkeyField := &structField{wiretag: uint64(t.fieldNumber)<<3 | uint64(t.wireType)}",
  t!"\t\t\t\tkeyField.tagsize = sizeOfVarint(keyField.wiretag)",
  t!"\t\t\t\tconf.zigzag = t.zigzag",
  t!"\t\t\t\tkeyField.codec = w.codec(key, conf)",
  t!"",
  t!"\t\t\t\tt, _ = parseStructTag(f.Tag.Get(\"protobuf_val\"))",
  t!"\t\t\t\tvalFiled := &structField{wiretag: uint64(t.fieldNumber)<<3 | uint64(t.wireType)}",
  t!"\t\t\t\tvalFiled.tagsize = sizeOfVarint(valFiled.wiretag)",
  t!"\t\t\t\tconf.zigzag = t.zigzag",
  t!"\t\t\t\tvalFiled.codec = w.codec(val, conf)",
  t!"",
  t!"\t\t\t\tm.keyField = keyField",
  t!"\t\t\t\tm.valField = valFiled",
  t!"\t\t\t\tfield.codec = w.mapCodec(f.Type, m)",
  t!"",
  t!"\t\t\tdefault:",
  t!"\t\t\t\tfield.codec = w.codec(f.Type, conf)",
  t!"\t\t\t}",
  t!"\t\t}",
  t!"\t\tfield.tagsize = sizeOfVarint(field.wiretag)",
  t!"\t\tfields = append(fields, &field)",
  t!"\t}",
  t!"",
  t!"\t// copy to save capacity",
  t!"\tfields2 := make([]*structField, len(fields))",
  t!"\tcopy(fields2, fields)",
  t!"\tinfo.fields = fields2",
  t!"",
  t!"\tinfo.fieldIndex = make(map[fieldNumber]*structField, len(info.fields))",
  t!"\tfor _, f := range info.fields {",
  t!"\t\tinfo.fieldIndex[f.fieldNumber()] = f",
  t!"\t}",
  t!"",
  t!"\tstructInfoCache.Store(pointer(t), info)",
  t!"\treturn info",
  t!"}"]

/-- proto/walker.go:284-297 -/
def pointerGo : Text := lines [
  t!"func (w *walker) pointer(t reflect.Type, conf *walkerConfig) *codec {",
  t!"\tswitch t.Elem().Kind() {",
  t!"\tcase reflect.Struct:",
  t!"\t\treturn w.structCodec(t)",
  t!"\t}",
  t!"\t// common value",
  t!"\tp := new(codec)",
  t!"\tw.codecs[t] = p",
  t!"\tc := w.codec(t.Elem(), conf)",
  t!"\tp.size = pointerSizeFuncOf(t, c)",
  t!"\tp.encode = pointerEncodeFuncOf(t, c)",
  t!"\tp.decode = pointerDecodeFuncOf(t, c)",
  t!"\treturn p",
  t!"}"]

/-- proto/walker.go:299-340 -/
def requiredGo : Text := lines [
  t!"func (w *walker) required(t reflect.Type, conf *walkerConfig) *codec {",
  t!"\tif c, ok := w.codecs[t]; ok {",
  t!"\t\treturn c",
  t!"\t}",
  t!"",
  t!"\tswitch t.Kind() {",
  t!"\tcase reflect.Bool:",
  t!"\t\treturn &boolRequiredCodec",
  t!"\tcase reflect.Int32:",
  t!"\t\tif conf.zigzag {",
  t!"\t\t\treturn &zigzag32RequiredCodec",
  t!"\t\t}",
  t!"\t\treturn &int32RequiredCodec",
  t!"\tcase reflect.Int64:",
  t!"\t\tif conf.zigzag {",
  t!"\t\t\treturn &zigzag64RequiredCodec",
  t!"\t\t}",
  t!"\t\treturn &int64RequiredCodec",
  t!"\tcase reflect.Uint32:",
  t!"\t\treturn &uint32RequiredCodec",
  t!"\tcase reflect.Uint64:",
  t!"\t\treturn &uint64RequiredCodec",
  t!"\tcase reflect.Float32:",
  t!"\t\treturn &float32RequiredCodec",
  t!"\tcase reflect.Float64:",
  t!"\t\treturn &float64RequiredCodec",
  t!"\tcase reflect.String:",
  t!"\t\treturn &stringRequiredCodec",
  t!"\tcase reflect.Slice:",
  t!"\t\telem := t.Elem()",
  t!"\t\tswitch elem.Kind() {",
  t!"\t\tcase reflect.Uint8:",
  t!"\t\t\treturn &bytesCodec",
  t!"\t\t}",
  t!"\tcase reflect.Struct:",
  t!"\t\tpanic(\"nested message must be pointer:\" + t.String())",
  t!"\tcase reflect.Ptr:",
  t!"\t\treturn w.pointer(t, conf)",
  t!"\t}",
  t!"",
  t!"\tpanic(\"unsupported type: \" + t.String())",
  t!"}"]

/-- proto/walker.go:342-350 -/
def pointerSizeFuncOfGo : Text := lines [
  t!"func pointerSizeFuncOf(_ reflect.Type, c *codec) sizeFunc {",
  t!"\treturn func(p unsafe.Pointer, f *structField) int {",
  t!"\t\tp = deref(p)",
  t!"\t\tif p != nil {",
  t!"\t\t\treturn c.size(p, f)",
  t!"\t\t}",
  t!"\t\treturn 0",
  t!"\t}",
  t!"}"]

/-- proto/walker.go:352-360 -/
def pointerEncodeFuncOfGo : Text := lines [
  t!"func pointerEncodeFuncOf(_ reflect.Type, c *codec) encodeFunc {",
  t!"\treturn func(b []byte, p unsafe.Pointer, f *structField) []byte {",
  t!"\t\tp = deref(p)",
  t!"\t\tif p != nil {",
  t!"\t\t\treturn c.encode(b, p, f)",
  t!"\t\t}",
  t!"\t\treturn b",
  t!"\t}",
  t!"}"]

/-- proto/walker.go:362-371 -/
def pointerDecodeFuncOfGo : Text := lines [
  t!"func pointerDecodeFuncOf(t reflect.Type, c *codec) decodeFunc {",
  t!"\tt = t.Elem()",
  t!"\treturn func(b []byte, p unsafe.Pointer) (int, error) {",
  t!"\t\tv := (*unsafe.Pointer)(p)",
  t!"\t\tif *v == nil {",
  t!"\t\t\t*v = unsafe.Pointer(reflect.New(t).Pointer())",
  t!"\t\t}",
  t!"\t\treturn c.decode(b, *v)",
  t!"\t}",
  t!"}"]

/-- proto/slice.go:13-29 -/
def sliceCodecOfGo : Text := lines [
  t!"func sliceCodecOf(t reflect.Type, c *codec, w *walker) *codec {",
  t!"\tif loaded, ok := sliceMap.Load(c); ok {",
  t!"\t\treturn loaded.(*codec)",
  t!"\t}",
  t!"\tif w.codecs[t] != nil {",
  t!"\t\treturn w.codecs[t]",
  t!"\t}",
  t!"\ts := new(codec)",
  t!"\tw.codecs[t] = s",
  t!"",
  t!"\ts.size = sliceSizeFuncOf(t, c)",
  t!"\ts.encode = sliceEncodeFuncOf(t, c)",
  t!"\ts.decode = sliceDecodeFuncOf(t, c)",
  t!"",
  t!"\tactualCodec, _ := sliceMap.LoadOrStore(c, s)",
  t!"\treturn actualCodec.(*codec)",
  t!"}"]

/-- proto/slice.go:31-43 -/
def sliceSizeFuncOfGo : Text := lines [
  t!"func sliceSizeFuncOf(t reflect.Type, c *codec) sizeFunc {",
  t!"\telemSize := alignedSize(t.Elem())",
  t!"\treturn func(p unsafe.Pointer, sf *structField) int {",
  t!"\t\tn := 0",
  t!"\t\tif v := (*Slice)(p); v != nil {",
  t!"\t\t\tfor i := 0; i < v.Len(); i++ {",
  t!"\t\t\t\telem := v.Index(i, elemSize)",
  t!"\t\t\t\tn += c.size(elem, sf)",
  t!"\t\t\t}",
  t!"\t\t}",
  t!"\t\treturn n",
  t!"\t}",
  t!"}"]

/-- proto/slice.go:45-56 -/
def sliceEncodeFuncOfGo : Text := lines [
  t!"func sliceEncodeFuncOf(t reflect.Type, c *codec) encodeFunc {",
  t!"\telemSize := alignedSize(t.Elem())",
  t!"\treturn func(b []byte, p unsafe.Pointer, sf *structField) []byte {",
  t!"\t\tif s := (*Slice)(p); s != nil {",
  t!"\t\t\tfor i := 0; i < s.Len(); i++ {",
  t!"\t\t\t\telem := s.Index(i, elemSize)",
  t!"\t\t\t\tb = c.encode(b, elem, sf)",
  t!"\t\t\t}",
  t!"\t\t}",
  t!"\t\treturn b",
  t!"\t}",
  t!"}"]

/-- proto/slice.go:58-75 -/
def sliceDecodeFuncOfGo : Text := lines [
  t!"func sliceDecodeFuncOf(t reflect.Type, c *codec) decodeFunc {",
  t!"\telemType := t.Elem()",
  t!"\telemSize := alignedSize(elemType)",
  t!"\treturn func(b []byte, p unsafe.Pointer) (int, error) {",
  t!"\t\ts := (*Slice)(p)",
  t!"\t\ti := s.Len()",
  t!"",
  t!"\t\tif i == s.Cap() {",
  t!"\t\t\t*s = growSlice(elemType, s)",
  t!"\t\t}",
  t!"",
  t!"\t\tn, err := c.decode(b, s.Index(i, elemSize))",
  t!"\t\tif err == nil {",
  t!"\t\t\ts.SetLen(i + 1)",
  t!"\t\t}",
  t!"\t\treturn n, err",
  t!"\t}",
  t!"}"]

/-- proto/map.go:20-28 -/
def mapCodecGo : Text := lines [
  t!"func (w *walker) mapCodec(t reflect.Type, f *mapField) *codec {",
  t!"\tm := new(codec)",
  t!"\tw.codecs[t] = m",
  t!"",
  t!"\tm.size = mapSizeFuncOf(t, f)",
  t!"\tm.encode = mapEncodeFuncOf(t, f)",
  t!"\tm.decode = mapDecodeFuncOf(t, f, w)",
  t!"\treturn m",
  t!"}"]

/-- proto/map.go:30-56 -/
def mapSizeFuncOfGo : Text := lines [
  t!"func mapSizeFuncOf(t reflect.Type, f *mapField) sizeFunc {",
  t!"\tmapTagSize := sizeOfVarint(f.wiretag)",
  t!"\tkeyCodec := f.keyField.codec",
  t!"\tvalCodec := f.valField.codec",
  t!"",
  t!"\treturn func(p unsafe.Pointer, sf *structField) int {",
  t!"\t\tif p == nil {",
  t!"\t\t\treturn 0",
  t!"\t\t}",
  t!"",
  t!"\t\tp = *(*unsafe.Pointer)(p)",
  t!"",
  t!"\t\tn := 0",
  t!"\t\tm := MapIter{}",
  t!"\t\tdefer m.Done()",
  t!"",
  t!"\t\tfor m.Init(pointer(t), p); m.HasNext(); m.Next() {",
  t!"\t\t\tkeySize := keyCodec.size(m.Key(), f.keyField)",
  t!"\t\t\tvalSize := valCodec.size(m.Value(), f.valField)",
  t!"\t\t\tn += mapTagSize + sizeOfVarint(uint64(keySize+valSize)) + keySize + valSize",
  t!"\t\t}",
  t!"\t\tif n == 0 {",
  t!"\t\t\tn = mapTagSize + zeroSize",
  t!"\t\t}",
  t!"\t\treturn n",
  t!"\t}",
  t!"}"]

/-- proto/map.go:58-94 -/
def mapEncodeFuncOfGo : Text := lines [
  t!"func mapEncodeFuncOf(t reflect.Type, f *mapField) encodeFunc {",
  t!"\tmapTag := appendVarint(nil, f.wiretag)",
  t!"\tzero := append(mapTag, 0)",
  t!"\tkeyCodec := f.keyField.codec",
  t!"\tvalCodec := f.valField.codec",
  t!"",
  t!"\treturn func(b []byte, p unsafe.Pointer, sf *structField) []byte {",
  t!"\t\tif p == nil {",
  t!"\t\t\treturn b",
  t!"\t\t}",
  t!"\t\tp = *(*unsafe.Pointer)(p)",
  t!"",
  t!"\t\torigLen := len(b)",
  t!"",
  t!"\t\tm := MapIter{}",
  t!"\t\tdefer m.Done()",
  t!"",
  t!"\t\tfor m.Init(pointer(t), p); m.HasNext(); m.Next() {",
  t!"\t\t\tkey := m.Key()",
  t!"\t\t\tval := m.Value()",
  t!"",
  t!"\t\t\tkeySize := keyCodec.size(key, f.keyField)",
  t!"\t\t\tvalSize := keyCodec.size(val, f.valField)",
  t!"\t\t\telemSize := keySize + valSize",
  t!"",
  t!"\t\t\tb = append(b, mapTag...)",
  t!"\t\t\tb = appendVarint(b, uint64(elemSize))",
  t!"\t\t\tb = keyCodec.encode(b, key, f.keyField)",
  t!"\t\t\tb = valCodec.encode(b, val, f.valField)",
  t!"\t\t}",
  t!"",
  t!"\t\tif len(b) == origLen {",
  t!"\t\t\tb = append(b, zero...)",
  t!"\t\t}",
  t!"\t\treturn b",
  t!"\t}",
  t!"}"]

/-- proto/map.go:100-144 -/
def mapDecodeFuncOfGo : Text := lines [
  t!"func mapDecodeFuncOf(t reflect.Type, m *mapField, w *walker) decodeFunc {",
  t!"\tstructType := reflect.StructOf([]reflect.StructField{",
  t!"\t\t{Name: \"Key\", Type: t.Key(), Tag: formatWireTag(m.keyField.wiretag)},",
  t!"\t\t{Name: \"Elem\", Type: t.Elem(), Tag: formatWireTag(m.valField.wiretag)},",
  t!"\t})",
  t!"",
  t!"\tinfo := w.structInfo(structType)",
  t!"\tstructPool := new(sync.Pool)",
  t!"\tstructZero := pointer(reflect.Zero(structType).Interface())",
  t!"",
  t!"\tvalueType := t.Elem()",
  t!"\tvalueOffset := structType.Field(1).Offset",
  t!"",
  t!"\tmtype := pointer(t)",
  t!"\tstype := pointer(structType)",
  t!"\tvtype := pointer(valueType)",
  t!"",
  t!"\treturn func(b []byte, p unsafe.Pointer) (int, error) {",
  t!"\t\tm := (*unsafe.Pointer)(p)",
  t!"\t\tif *m == nil {",
  t!"\t\t\t*m = MakeMap(mtype, 10)",
  t!"\t\t}",
  t!"\t\tif len(b) == 0 {",
  t!"\t\t\treturn 0, nil",
  t!"\t\t}",
  t!"",
  t!"\t\ts := pointer(structPool.Get())",
  t!"\t\tif s == nil {",
  t!"\t\t\ts = unsafe.Pointer(reflect.New(structType).Pointer())",
  t!"\t\t}",
  t!"",
  t!"\t\t_, nl, err := decodeVarint(b)",
  t!"\t\tif err != nil {",
  t!"\t\t\treturn 0, err",
  t!"\t\t}",
  t!"\t\tn, err := info.decode(b[nl:], s)",
  t!"\t\tif err == nil {",
  t!"\t\t\tv := MapAssign(mtype, *m, s)",
  t!"\t\t\tAssign(vtype, v, unsafe.Pointer(uintptr(s)+valueOffset))",
  t!"\t\t}",
  t!"\t\tAssign(stype, s, structZero)",
  t!"\t\tstructPool.Put(s)",
  t!"\t\treturn n + nl, err",
  t!"\t}",
  t!"}"]

/-- proto/struct.go:159-223 -/
def parseStructTagGo : Text := lines [
  t!"func parseStructTag(tag string) (structTag, error) {",
  t!"\tt := structTag{",
  t!"\t\t// version:    2,",
  t!"\t}",
  t!"",
  t!"\tfor i, f := range splitFields(tag) {",
  t!"\t\tswitch i {",
  t!"\t\tcase 0:",
  t!"\t\t\tswitch f {",
  t!"\t\t\tcase \"varint\":",
  t!"\t\t\t\tt.wireType = varint",
  t!"\t\t\tcase \"bytes\":",
  t!"\t\t\t\tt.wireType = varlen",
  t!"\t\t\tcase \"fixed32\":",
  t!"\t\t\t\tt.wireType = fixed32",
  t!"\t\t\tcase \"fixed64\":",
  t!"\t\t\t\tt.wireType = fixed64",
  t!"\t\t\tcase \"zigzag32\":",
  t!"\t\t\t\tt.wireType = varint",
  t!"\t\t\t\tt.zigzag = true",
  t!"\t\t\tcase \"zigzag64\":",
  t!"\t\t\t\tt.wireType = varint",
  t!"\t\t\t\tt.zigzag = true",
  t!"\t\t\tdefault:",
  t!"\t\t\t\treturn t, fmt.Errorf(\"unsupported wire type in struct tag %q: %s\", tag, f)",
  t!"\t\t\t}",
  t!"",
  t!"\t\tcase 1:",
  t!"\t\t\tn, err := strconv.Atoi(f)",
  t!"\t\t\tif err != nil {",
  t!"\t\t\t\treturn t, fmt.Errorf(\"unsupported field number in struct tag %q: %w\", tag, err)",
  t!"\t\t\t}",
  t!"\t\t\tt.fieldNumber = fieldNumber(n)",
  t!"",
  t!"\t\tcase 2:",
  t!"\t\t\tswitch f {",
  t!"\t\t\tcase \"opt\":",
  t!"\t\t\t\t// not sure what this is for",
  t!"\t\t\tcase \"rep\":",
  t!"\t\t\t\tt.repeated = true",
  t!"\t\t\tdefault:",
  t!"\t\t\t\treturn t, fmt.Errorf(\"unsupported field option in struct tag %q: %s\", tag, f)",
  t!"\t\t\t}",
  t!"",
  t!"\t\tdefault:",
  t!"\t\t\t/*",
  t!"\t\t\t\tname, value := splitNameValue(f)",
  t!"\t\t\t\tswitch name {",
  t!"\t\t\t\tcase \"name\":",
  t!"\t\t\t\t\tt.name = value",
  t!"\t\t\t\tcase \"enum\":",
  t!"\t\t\t\t\tt.enum = value",
  t!"\t\t\t\tcase \"json\":",
  t!"\t\t\t\t\tt.json = value",
  t!"\t\t\t\tcase \"proto3\":",
  t!"\t\t\t\t\tt.version = 3",
  t!"\t\t\t\tdefault:",
  t!"\t\t\t\t\tt.extensions[name] = value",
  t!"\t\t\t\t}",
  t!"\t\t\t*/",
  t!"\t\t}",
  t!"\t}",
  t!"",
  t!"\treturn t, nil",
  t!"}"]

/-- proto/struct.go:225-227 -/
def splitFieldsGo : Text := lines [
  t!"func splitFields(s string) []string {",
  t!"\treturn strings.Split(s, \",\")",
  t!"}"]

/-- proto/proto.go:111-125 -/
def cachedStructInfoOfGo : Text := lines [
  t!"func cachedStructInfoOf(t reflect.Type) *structInfo {",
  t!"\tc, ok := structInfoCache.Load(pointer(t))",
  t!"\tif ok {",
  t!"\t\treturn c",
  t!"\t}",
  t!"",
  t!"\tw := &walker{",
  t!"\t\tcodecs: make(map[reflect.Type]*codec),",
  t!"\t\tinfos:  make(map[reflect.Type]*structInfo),",
  t!"\t}",
  t!"",
  t!"\tinfo := w.structInfo(t)",
  t!"\tactual, _ := structInfoCache.LoadOrStore(pointer(t), info)",
  t!"\treturn actual",
  t!"}"]

end Pb.Go.WalkText
