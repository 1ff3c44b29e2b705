import Verif.Spec.GoSyntax
/-
The text of Go files of the library, as it is in /repo/proto, line by line. Written by tools/embed.py; `tools/embed.py` without arguments
compares this file with /repo.
-/
namespace Pb.Go

/-- Lines, each with a newline after it. -/
def lines (ls : List Text) : Text := ls.flatMap (· ++ ['\n'])

/-- proto/size.go -/
def sizeGo : Text := lines [
  t!"package proto",
  t!"",
  t!"import (",
  t!"\t\"math/bits\"",
  t!"\t\"unsafe\"",
  t!")",
  t!"",
  t!"type sizeFunc = func(unsafe.Pointer, *structField) int",
  t!"",
  t!"func sizeOfVarint(v uint64) int {",
  t!"\t// This computes 1 + (bits.Len64(v)-1)/7.",
  t!"\t// 9/64 is a good enough approximation of 1/7",
  t!"\t// see https://github.com/protocolbuffers/protobuf-go/commit/a30b571f93edc9b3bd5df1dd61ceaeb17aa7f7c5",
  t!"\treturn int(9*uint32(bits.Len64(v))+64) / 64",
  t!"}",
  t!"",
  t!"func sizeOfVarlen(n int) int {",
  t!"\treturn sizeOfVarint(uint64(n)) + n",
  t!"}"]

/-- proto/encode.go -/
def encodeGo : Text := lines [
  t!"package proto",
  t!"",
  t!"import (",
  t!"\t\"unsafe\"",
  t!")",
  t!"",
  t!"func encodeZigZag64(v int64) uint64 {",
  t!"\treturn (uint64(v) << 1) ^ uint64(v>>63)",
  t!"}",
  t!"",
  t!"type encodeFunc = func([]byte, unsafe.Pointer, *structField) []byte",
  t!"",
  t!"func appendVarint(b []byte, v uint64) []byte {",
  t!"\tswitch {",
  t!"\tcase v < 1<<7:",
  t!"\t\tb = append(b, byte(v))",
  t!"\tcase v < 1<<14:",
  t!"\t\tb = append(b,",
  t!"\t\t\tbyte((v>>0)&0x7f|0x80),",
  t!"\t\t\tbyte(v>>7))",
  t!"\tcase v < 1<<21:",
  t!"\t\tb = append(b,",
  t!"\t\t\tbyte((v>>0)&0x7f|0x80),",
  t!"\t\t\tbyte((v>>7)&0x7f|0x80),",
  t!"\t\t\tbyte(v>>14))",
  t!"\tcase v < 1<<28:",
  t!"\t\tb = append(b,",
  t!"\t\t\tbyte((v>>0)&0x7f|0x80),",
  t!"\t\t\tbyte((v>>7)&0x7f|0x80),",
  t!"\t\t\tbyte((v>>14)&0x7f|0x80),",
  t!"\t\t\tbyte(v>>21))",
  t!"\tcase v < 1<<35:",
  t!"\t\tb = append(b,",
  t!"\t\t\tbyte((v>>0)&0x7f|0x80),",
  t!"\t\t\tbyte((v>>7)&0x7f|0x80),",
  t!"\t\t\tbyte((v>>14)&0x7f|0x80),",
  t!"\t\t\tbyte((v>>21)&0x7f|0x80),",
  t!"\t\t\tbyte(v>>28))",
  t!"\tcase v < 1<<42:",
  t!"\t\tb = append(b,",
  t!"\t\t\tbyte((v>>0)&0x7f|0x80),",
  t!"\t\t\tbyte((v>>7)&0x7f|0x80),",
  t!"\t\t\tbyte((v>>14)&0x7f|0x80),",
  t!"\t\t\tbyte((v>>21)&0x7f|0x80),",
  t!"\t\t\tbyte((v>>28)&0x7f|0x80),",
  t!"\t\t\tbyte(v>>35))",
  t!"\tcase v < 1<<49:",
  t!"\t\tb = append(b,",
  t!"\t\t\tbyte((v>>0)&0x7f|0x80),",
  t!"\t\t\tbyte((v>>7)&0x7f|0x80),",
  t!"\t\t\tbyte((v>>14)&0x7f|0x80),",
  t!"\t\t\tbyte((v>>21)&0x7f|0x80),",
  t!"\t\t\tbyte((v>>28)&0x7f|0x80),",
  t!"\t\t\tbyte((v>>35)&0x7f|0x80),",
  t!"\t\t\tbyte(v>>42))",
  t!"\tcase v < 1<<56:",
  t!"\t\tb = append(b,",
  t!"\t\t\tbyte((v>>0)&0x7f|0x80),",
  t!"\t\t\tbyte((v>>7)&0x7f|0x80),",
  t!"\t\t\tbyte((v>>14)&0x7f|0x80),",
  t!"\t\t\tbyte((v>>21)&0x7f|0x80),",
  t!"\t\t\tbyte((v>>28)&0x7f|0x80),",
  t!"\t\t\tbyte((v>>35)&0x7f|0x80),",
  t!"\t\t\tbyte((v>>42)&0x7f|0x80),",
  t!"\t\t\tbyte(v>>49))",
  t!"\tcase v < 1<<63:",
  t!"\t\tb = append(b,",
  t!"\t\t\tbyte((v>>0)&0x7f|0x80),",
  t!"\t\t\tbyte((v>>7)&0x7f|0x80),",
  t!"\t\t\tbyte((v>>14)&0x7f|0x80),",
  t!"\t\t\tbyte((v>>21)&0x7f|0x80),",
  t!"\t\t\tbyte((v>>28)&0x7f|0x80),",
  t!"\t\t\tbyte((v>>35)&0x7f|0x80),",
  t!"\t\t\tbyte((v>>42)&0x7f|0x80),",
  t!"\t\t\tbyte((v>>49)&0x7f|0x80),",
  t!"\t\t\tbyte(v>>56))",
  t!"\tdefault:",
  t!"\t\tb = append(b,",
  t!"\t\t\tbyte((v>>0)&0x7f|0x80),",
  t!"\t\t\tbyte((v>>7)&0x7f|0x80),",
  t!"\t\t\tbyte((v>>14)&0x7f|0x80),",
  t!"\t\t\tbyte((v>>21)&0x7f|0x80),",
  t!"\t\t\tbyte((v>>28)&0x7f|0x80),",
  t!"\t\t\tbyte((v>>35)&0x7f|0x80),",
  t!"\t\t\tbyte((v>>42)&0x7f|0x80),",
  t!"\t\t\tbyte((v>>49)&0x7f|0x80),",
  t!"\t\t\tbyte((v>>56)&0x7f|0x80),",
  t!"\t\t\t1)",
  t!"\t}",
  t!"\treturn b",
  t!"}",
  t!"",
  t!"func appendVarintZigZag(b []byte, v int64) []byte {",
  t!"\treturn appendVarint(b, encodeZigZag64(v))",
  t!"}",
  t!"",
  t!"func encodeLE32(b []byte, v uint32) []byte {",
  t!"\treturn append(b,",
  t!"\t\tbyte(v>>0),",
  t!"\t\tbyte(v>>8),",
  t!"\t\tbyte(v>>16),",
  t!"\t\tbyte(v>>24))",
  t!"}",
  t!"",
  t!"func encodeLE64(b []byte, v uint64) []byte {",
  t!"\treturn append(b,",
  t!"\t\tbyte(v>>0),",
  t!"\t\tbyte(v>>8),",
  t!"\t\tbyte(v>>16),",
  t!"\t\tbyte(v>>24),",
  t!"\t\tbyte(v>>32),",
  t!"\t\tbyte(v>>40),",
  t!"\t\tbyte(v>>48),",
  t!"\t\tbyte(v>>56))",
  t!"}",
  t!"",
  t!"func appendTag(b []byte, f fieldNumber, t wireType) []byte {",
  t!"\treturn appendVarint(b, uint64(f)<<3|uint64(t))",
  t!"}"]

/-- proto/decode.go -/
def decodeGo : Text := lines [
  t!"package proto",
  t!"",
  t!"import (",
  t!"\t\"encoding/binary\"",
  t!"\t\"errors\"",
  t!"\t\"io\"",
  t!"\t\"unsafe\"",
  t!")",
  t!"",
  t!"func decodeZigZag64(v uint64) int64 {",
  t!"\treturn int64(v>>1) ^ -(int64(v) & 1)",
  t!"}",
  t!"",
  t!"type decodeFunc = func([]byte, unsafe.Pointer) (int, error)",
  t!"",
  t!"var errVarintOverflow = errors.New(\"varint overflowed 64 bits integer\")",
  t!"",
  t!"func decodeVarint(b []byte) (uint64, int, error) {",
  t!"\tif len(b) != 0 && b[0] < 0x80 {",
  t!"\t\t// Fast-path for decoding the common case of varints that fit on a",
  t!"\t\t// single byte.",
  t!"\t\t//",
  t!"\t\t// This path is ~60% faster than calling binary.Uvarint.",
  t!"\t\treturn uint64(b[0]), 1, nil",
  t!"\t}",
  t!"",
  t!"\tvar x uint64",
  t!"\tvar s uint",
  t!"",
  t!"\tfor i, c := range b {",
  t!"\t\tif c < 0x80 {",
  t!"\t\t\tif i > 9 || i == 9 && c > 1 {",
  t!"\t\t\t\treturn 0, i, errVarintOverflow",
  t!"\t\t\t}",
  t!"\t\t\treturn x | uint64(c)<<s, i + 1, nil",
  t!"\t\t}",
  t!"\t\tx |= uint64(c&0x7f) << s",
  t!"\t\ts += 7",
  t!"\t}",
  t!"",
  t!"\treturn x, len(b), io.ErrUnexpectedEOF",
  t!"}",
  t!"",
  t!"func decodeVarintZigZag(b []byte) (int64, int, error) {",
  t!"\tv, n, err := decodeVarint(b)",
  t!"\treturn decodeZigZag64(v), n, err",
  t!"}",
  t!"",
  t!"func decodeLE32(b []byte) (uint32, int, error) {",
  t!"\tif len(b) < 4 {",
  t!"\t\treturn 0, 0, io.ErrUnexpectedEOF",
  t!"\t}",
  t!"\treturn binary.LittleEndian.Uint32(b), 4, nil",
  t!"}",
  t!"",
  t!"func decodeLE64(b []byte) (uint64, int, error) {",
  t!"\tif len(b) < 8 {",
  t!"\t\treturn 0, 0, io.ErrUnexpectedEOF",
  t!"\t}",
  t!"\treturn binary.LittleEndian.Uint64(b), 8, nil",
  t!"}",
  t!"",
  t!"func decodeTag(b []byte) (f fieldNumber, t wireType, n int, err error) {",
  t!"\tv, n, err := decodeVarint(b)",
  t!"\treturn fieldNumber(v >> 3), wireType(v & 7), n, err",
  t!"}",
  t!"",
  t!"func decodeVarlen(b []byte) ([]byte, int, error) {",
  t!"\tv, n, err := decodeVarint(b)",
  t!"\tif err != nil {",
  t!"\t\treturn nil, n, err",
  t!"\t}",
  t!"\tif v > uint64(len(b)-n) {",
  t!"\t\treturn nil, n, io.ErrUnexpectedEOF",
  t!"\t}",
  t!"\treturn b[n : n+int(v)], n + int(v), nil",
  t!"}"]

/-- proto/normal_codec.go -/
def normalCodecGo : Text := lines [
  t!"package proto",
  t!"",
  t!"import (",
  t!"\t\"io\"",
  t!"\t\"math\"",
  t!"\t\"unsafe\"",
  t!")",
  t!"",
  t!"var boolCodec = codec{",
  t!"\tsize:   sizeOfBool,",
  t!"\tencode: encodeBool,",
  t!"\tdecode: decodeBool,",
  t!"}",
  t!"",
  t!"func sizeOfBool(p unsafe.Pointer, f *structField) int {",
  t!"\tif *(*bool)(p) {",
  t!"\t\treturn 1 + int(f.tagsize)",
  t!"\t}",
  t!"\treturn 0",
  t!"}",
  t!"",
  t!"func encodeBool(b []byte, p unsafe.Pointer, f *structField) []byte {",
  t!"\tif *(*bool)(p) {",
  t!"\t\tb = appendVarint(b, f.wiretag)",
  t!"\t\tif *(*bool)(p) { // keep this for code generate",
  t!"\t\t\tb = append(b, 1)",
  t!"\t\t} else {",
  t!"\t\t\tb = append(b, 0)",
  t!"\t\t}",
  t!"\t}",
  t!"\treturn b",
  t!"}",
  t!"",
  t!"func decodeBool(b []byte, p unsafe.Pointer) (int, error) {",
  t!"\tif len(b) == 0 {",
  t!"\t\treturn 0, io.ErrUnexpectedEOF",
  t!"\t}",
  t!"\t*(*bool)(p) = b[0] != 0",
  t!"\treturn 1, nil",
  t!"}",
  t!"",
  t!"var bytesCodec = codec{",
  t!"\tsize:   sizeOfBytes,",
  t!"\tencode: encodeBytes,",
  t!"\tdecode: decodeBytes,",
  t!"}",
  t!"",
  t!"func sizeOfBytes(p unsafe.Pointer, f *structField) int {",
  t!"\tv := *(*[]byte)(p)",
  t!"\tif v != nil {",
  t!"\t\treturn sizeOfVarlen(len(v)) + f.tagsize",
  t!"\t}",
  t!"\treturn 0",
  t!"}",
  t!"",
  t!"func encodeBytes(b []byte, p unsafe.Pointer, f *structField) []byte {",
  t!"\tv := *(*[]byte)(p)",
  t!"\tif v != nil {",
  t!"\t\tb = appendVarint(b, f.wiretag)",
  t!"\t\tb = appendVarint(b, uint64(len(v)))",
  t!"\t\tb = append(b, v...)",
  t!"\t}",
  t!"\treturn b",
  t!"}",
  t!"",
  t!"func decodeBytes(b []byte, p unsafe.Pointer) (int, error) {",
  t!"\tv, n, err := decodeVarlen(b)",
  t!"\tpb := (*[]byte)(p)",
  t!"\tif *pb == nil {",
  t!"\t\t*pb = make([]byte, 0, len(v))",
  t!"\t}",
  t!"\t*pb = append((*pb)[:0], v...)",
  t!"\treturn n, err",
  t!"}",
  t!"",
  t!"var stringCodec = codec{",
  t!"\tsize:   sizeOfString,",
  t!"\tencode: encodeString,",
  t!"\tdecode: decodeString,",
  t!"}",
  t!"",
  t!"func sizeOfString(p unsafe.Pointer, f *structField) int {",
  t!"\tv := *(*string)(p)",
  t!"\tif v != \"\" {",
  t!"\t\treturn sizeOfVarlen(len(v)) + f.tagsize",
  t!"\t}",
  t!"\treturn 0",
  t!"}",
  t!"",
  t!"func encodeString(b []byte, p unsafe.Pointer, f *structField) []byte {",
  t!"\tv := *(*string)(p)",
  t!"\tif v != \"\" {",
  t!"\t\tb = appendVarint(b, f.wiretag)",
  t!"\t\tb = appendVarint(b, uint64(len(v)))",
  t!"\t\tb = append(b, v...)",
  t!"\t}",
  t!"\treturn b",
  t!"}",
  t!"",
  t!"func decodeString(b []byte, p unsafe.Pointer) (int, error) {",
  t!"\tv, n, err := decodeVarlen(b)",
  t!"\tif n == 0 {",
  t!"\t\t*(*string)(p) = \"\"",
  t!"\t\treturn 0, err",
  t!"\t}",
  t!"\t*(*string)(p) = string(v)",
  t!"\treturn n, err",
  t!"}",
  t!"",
  t!"var float32Codec = codec{",
  t!"\tsize:   sizeOfFloat32,",
  t!"\tencode: encodeFloat32,",
  t!"\tdecode: decodeFloat32,",
  t!"}",
  t!"",
  t!"func sizeOfFloat32(p unsafe.Pointer, f *structField) int {",
  t!"\tif *(*float32)(p) != 0 || math.Signbit(float64(*(*float32)(p))) {",
  t!"\t\treturn 4 + int(f.tagsize)",
  t!"\t}",
  t!"\treturn 0",
  t!"}",
  t!"",
  t!"func encodeFloat32(b []byte, p unsafe.Pointer, f *structField) []byte {",
  t!"\tif v := *(*float32)(p); v != 0 || math.Signbit(float64(v)) {",
  t!"\t\tb = appendVarint(b, f.wiretag)",
  t!"\t\tb = encodeLE32(b, math.Float32bits(v))",
  t!"\t}",
  t!"\treturn b",
  t!"}",
  t!"",
  t!"func decodeFloat32(b []byte, p unsafe.Pointer) (int, error) {",
  t!"\tv, n, err := decodeLE32(b)",
  t!"\t*(*float32)(p) = math.Float32frombits(v)",
  t!"\treturn n, err",
  t!"}",
  t!"",
  t!"var float64Codec = codec{",
  t!"\tsize:   sizeOfFloat64,",
  t!"\tencode: encodeFloat64,",
  t!"\tdecode: decodeFloat64,",
  t!"}",
  t!"",
  t!"func sizeOfFloat64(p unsafe.Pointer, f *structField) int {",
  t!"\tif *(*float64)(p) != 0 || math.Signbit(*(*float64)(p)) {",
  t!"\t\treturn 8 + int(f.tagsize)",
  t!"\t}",
  t!"\treturn 0",
  t!"}",
  t!"",
  t!"func encodeFloat64(b []byte, p unsafe.Pointer, f *structField) []byte {",
  t!"\tif v := *(*float64)(p); v != 0 || math.Signbit(v) {",
  t!"\t\tb = appendVarint(b, f.wiretag)",
  t!"\t\tb = encodeLE64(b, math.Float64bits(v))",
  t!"\t}",
  t!"\treturn b",
  t!"}",
  t!"",
  t!"func decodeFloat64(b []byte, p unsafe.Pointer) (int, error) {",
  t!"\tv, n, err := decodeLE64(b)",
  t!"\t*(*float64)(p) = math.Float64frombits(v)",
  t!"\treturn n, err",
  t!"}",
  t!"",
  t!"var int32Codec = codec{",
  t!"\tsize:   sizeOfInt32,",
  t!"\tencode: encodeInt32,",
  t!"\tdecode: decodeInt32,",
  t!"}",
  t!"",
  t!"func sizeOfInt32(p unsafe.Pointer, f *structField) int {",
  t!"\tv := *(*int32)(p)",
  t!"\tif v != 0 {",
  t!"\t\treturn sizeOfVarint(uint64(v)) + f.tagsize",
  t!"\t}",
  t!"\treturn 0",
  t!"}",
  t!"",
  t!"func encodeInt32(b []byte, p unsafe.Pointer, f *structField) []byte {",
  t!"\tv := *(*int32)(p)",
  t!"\tif v != 0 {",
  t!"\t\tb = appendVarint(b, f.wiretag)",
  t!"\t\tb = appendVarint(b, uint64(v))",
  t!"\t}",
  t!"\treturn b",
  t!"}",
  t!"",
  t!"func decodeInt32(b []byte, p unsafe.Pointer) (int, error) {",
  t!"\tu, n, err := decodeVarint(b)",
  t!"\t*(*int32)(p) = int32(int64(u))",
  t!"\treturn n, err",
  t!"}",
  t!"",
  t!"var int64Codec = codec{",
  t!"\tsize:   sizeOfInt64,",
  t!"\tencode: encodeInt64,",
  t!"\tdecode: decodeInt64,",
  t!"}",
  t!"",
  t!"func sizeOfInt64(p unsafe.Pointer, f *structField) int {",
  t!"\tv := *(*int64)(p)",
  t!"\tif v != 0 {",
  t!"\t\treturn sizeOfVarint(uint64(v)) + f.tagsize",
  t!"\t}",
  t!"\treturn 0",
  t!"}",
  t!"",
  t!"func encodeInt64(b []byte, p unsafe.Pointer, f *structField) []byte {",
  t!"\tv := *(*int64)(p)",
  t!"\tif v != 0 {",
  t!"\t\tb = appendVarint(b, f.wiretag)",
  t!"\t\tb = appendVarint(b, uint64(v))",
  t!"\t}",
  t!"\treturn b",
  t!"}",
  t!"",
  t!"func decodeInt64(b []byte, p unsafe.Pointer) (int, error) {",
  t!"\tv, n, err := decodeVarint(b)",
  t!"\t*(*int64)(p) = int64(v)",
  t!"\treturn n, err",
  t!"}",
  t!"",
  t!"var uint32Codec = codec{",
  t!"\tsize:   sizeOfUint32,",
  t!"\tencode: encodeUint32,",
  t!"\tdecode: decodeUint32,",
  t!"}",
  t!"",
  t!"func sizeOfUint32(p unsafe.Pointer, f *structField) int {",
  t!"\tif v := *(*uint32)(p); v != 0 {",
  t!"\t\treturn sizeOfVarint(uint64(v)) + f.tagsize",
  t!"\t}",
  t!"\treturn 0",
  t!"}",
  t!"",
  t!"func encodeUint32(b []byte, p unsafe.Pointer, f *structField) []byte {",
  t!"\tif v := *(*uint32)(p); v != 0 {",
  t!"\t\tb = appendVarint(b, f.wiretag)",
  t!"\t\tb = appendVarint(b, uint64(v))",
  t!"\t}",
  t!"\treturn b",
  t!"}",
  t!"",
  t!"func decodeUint32(b []byte, p unsafe.Pointer) (int, error) {",
  t!"\tv, n, err := decodeVarint(b)",
  t!"\t*(*uint32)(p) = uint32(v)",
  t!"\treturn n, err",
  t!"}",
  t!"",
  t!"var fixed32Codec = codec{",
  t!"\tsize:   sizeOfFixed32,",
  t!"\tencode: encodeFixed32,",
  t!"\tdecode: decodeFixed32,",
  t!"}",
  t!"",
  t!"func sizeOfFixed32(p unsafe.Pointer, f *structField) int {",
  t!"\tif *(*uint32)(p) != 0 {",
  t!"\t\treturn 4 + f.tagsize",
  t!"\t}",
  t!"\treturn 0",
  t!"}",
  t!"",
  t!"func encodeFixed32(b []byte, p unsafe.Pointer, f *structField) []byte {",
  t!"\tif v := *(*uint32)(p); v != 0 {",
  t!"\t\tb = appendVarint(b, f.wiretag)",
  t!"\t\tb = encodeLE32(b, v)",
  t!"\t}",
  t!"\treturn b",
  t!"}",
  t!"",
  t!"func decodeFixed32(b []byte, p unsafe.Pointer) (int, error) {",
  t!"\tv, n, err := decodeLE32(b)",
  t!"\t*(*uint32)(p) = v",
  t!"\treturn n, err",
  t!"}",
  t!"",
  t!"var uint64Codec = codec{",
  t!"\tsize:   sizeOfUint64,",
  t!"\tencode: encodeUint64,",
  t!"\tdecode: decodeUint64,",
  t!"}",
  t!"",
  t!"func sizeOfUint64(p unsafe.Pointer, f *structField) int {",
  t!"\tif v := *(*uint64)(p); v != 0 {",
  t!"\t\treturn sizeOfVarint(v) + f.tagsize",
  t!"\t}",
  t!"\treturn 0",
  t!"}",
  t!"",
  t!"func encodeUint64(b []byte, p unsafe.Pointer, f *structField) []byte {",
  t!"\tif v := *(*uint64)(p); v != 0 {",
  t!"\t\tb = appendVarint(b, f.wiretag)",
  t!"\t\tb = appendVarint(b, v)",
  t!"\t}",
  t!"\treturn b",
  t!"}",
  t!"",
  t!"func decodeUint64(b []byte, p unsafe.Pointer) (int, error) {",
  t!"\tv, n, err := decodeVarint(b)",
  t!"\t*(*uint64)(p) = v",
  t!"\treturn n, err",
  t!"}",
  t!"",
  t!"var fixed64Codec = codec{",
  t!"\tsize:   sizeOfFixed64,",
  t!"\tencode: encodeFixed64,",
  t!"\tdecode: decodeFixed64,",
  t!"}",
  t!"",
  t!"func sizeOfFixed64(p unsafe.Pointer, f *structField) int {",
  t!"\tif *(*uint64)(p) != 0 {",
  t!"\t\treturn 8 + f.tagsize",
  t!"\t}",
  t!"\treturn 0",
  t!"}",
  t!"",
  t!"func encodeFixed64(b []byte, p unsafe.Pointer, f *structField) []byte {",
  t!"\tif v := *(*uint64)(p); v != 0 {",
  t!"\t\tb = appendVarint(b, f.wiretag)",
  t!"\t\tb = encodeLE64(b, v)",
  t!"\t}",
  t!"\treturn b",
  t!"}",
  t!"",
  t!"func decodeFixed64(b []byte, p unsafe.Pointer) (int, error) {",
  t!"\tv, n, err := decodeLE64(b)",
  t!"\t*(*uint64)(p) = v",
  t!"\treturn n, err",
  t!"}",
  t!"",
  t!"var zigzag32Codec = codec{",
  t!"\tsize:   sizeOfZigzag32,",
  t!"\tencode: encodeZigzag32,",
  t!"\tdecode: decodeZigzag32,",
  t!"}",
  t!"",
  t!"func sizeOfZigzag32(p unsafe.Pointer, f *structField) int {",
  t!"\tif v := *(*int32)(p); v != 0 {",
  t!"\t\treturn sizeOfVarint(encodeZigZag64(int64(v))) + f.tagsize",
  t!"\t}",
  t!"\treturn 0",
  t!"}",
  t!"",
  t!"func encodeZigzag32(b []byte, p unsafe.Pointer, f *structField) []byte {",
  t!"\tif v := *(*int32)(p); v != 0 {",
  t!"\t\tb = appendVarint(b, f.wiretag)",
  t!"\t\tb = appendVarint(b, encodeZigZag64(int64(v)))",
  t!"\t}",
  t!"\treturn b",
  t!"}",
  t!"",
  t!"func decodeZigzag32(b []byte, p unsafe.Pointer) (int, error) {",
  t!"\tu, n, err := decodeVarint(b)",
  t!"\t*(*int32)(p) = int32(decodeZigZag64(u))",
  t!"\treturn n, err",
  t!"}",
  t!"",
  t!"var zigzag64Codec = codec{",
  t!"\tsize:   sizeOfZigzag64,",
  t!"\tencode: encodeZigzag64,",
  t!"\tdecode: decodeZigzag64,",
  t!"}",
  t!"",
  t!"func sizeOfZigzag64(p unsafe.Pointer, f *structField) int {",
  t!"\tif v := *(*int64)(p); v != 0 {",
  t!"\t\treturn sizeOfVarint(encodeZigZag64(v)) + f.tagsize",
  t!"\t}",
  t!"\treturn 0",
  t!"}",
  t!"",
  t!"func encodeZigzag64(b []byte, p unsafe.Pointer, f *structField) []byte {",
  t!"\tif v := *(*int64)(p); v != 0 {",
  t!"\t\tb = appendVarint(b, f.wiretag)",
  t!"\t\tb = appendVarint(b, encodeZigZag64(v))",
  t!"\t}",
  t!"\treturn b",
  t!"}",
  t!"",
  t!"func decodeZigzag64(b []byte, p unsafe.Pointer) (int, error) {",
  t!"\tv, n, err := decodeVarint(b)",
  t!"\t*(*int64)(p) = decodeZigZag64(v)",
  t!"\treturn n, err",
  t!"}"]

/-- proto/required_codec.go -/
def requiredCodecGo : Text := lines [
  t!"// Code generated by gen/gen_decode.go. DO NOT EDIT.",
  t!"",
  t!"package proto",
  t!"",
  t!"import (",
  t!"\t\"math\"",
  t!"\t\"unsafe\"",
  t!")",
  t!"",
  t!"var boolRequiredCodec = codec{size: sizeOfBoolRequired, encode: encodeBoolRequired, decode: decodeBool}",
  t!"",
  t!"func sizeOfBoolRequired(p unsafe.Pointer, f *structField) int {",
  t!"\treturn 1 + int(f.tagsize)",
  t!"}",
  t!"func encodeBoolRequired(b []byte, p unsafe.Pointer, f *structField) []byte {",
  t!"\tb = appendVarint(b, f.wiretag)",
  t!"\tif *(*bool)(p) {",
  t!"\t\tb = append(b, 1)",
  t!"\t} else {",
  t!"\t\tb = append(b, 0)",
  t!"\t}",
  t!"\treturn b",
  t!"}",
  t!"",
  t!"var stringRequiredCodec = codec{size: sizeOfStringRequired, encode: encodeStringRequired, decode: decodeString}",
  t!"",
  t!"func sizeOfStringRequired(p unsafe.Pointer, f *structField) int {",
  t!"\tv := *(*string)(p)",
  t!"\treturn sizeOfVarlen(len(v)) + f.tagsize",
  t!"}",
  t!"func encodeStringRequired(b []byte, p unsafe.Pointer, f *structField) []byte {",
  t!"\tv := *(*string)(p)",
  t!"\tb = appendVarint(b, f.wiretag)",
  t!"\tb = appendVarint(b, uint64(len(v)))",
  t!"\tb = append(b, v...)",
  t!"\treturn b",
  t!"}",
  t!"",
  t!"var float32RequiredCodec = codec{size: sizeOfFloat32Required, encode: encodeFloat32Required, decode: decodeFloat32}",
  t!"",
  t!"func sizeOfFloat32Required(p unsafe.Pointer, f *structField) int {",
  t!"\treturn 4 + int(f.tagsize)",
  t!"}",
  t!"func encodeFloat32Required(b []byte, p unsafe.Pointer, f *structField) []byte {",
  t!"\tv := *(*float32)(p)",
  t!"\tb = appendVarint(b, f.wiretag)",
  t!"\tb = encodeLE32(b, math.Float32bits(v))",
  t!"\treturn b",
  t!"}",
  t!"",
  t!"var float64RequiredCodec = codec{size: sizeOfFloat64Required, encode: encodeFloat64Required, decode: decodeFloat64}",
  t!"",
  t!"func sizeOfFloat64Required(p unsafe.Pointer, f *structField) int {",
  t!"\treturn 8 + int(f.tagsize)",
  t!"}",
  t!"func encodeFloat64Required(b []byte, p unsafe.Pointer, f *structField) []byte {",
  t!"\tv := *(*float64)(p)",
  t!"\tb = appendVarint(b, f.wiretag)",
  t!"\tb = encodeLE64(b, math.Float64bits(v))",
  t!"\treturn b",
  t!"}",
  t!"",
  t!"var int32RequiredCodec = codec{size: sizeOfInt32Required, encode: encodeInt32Required, decode: decodeInt32}",
  t!"",
  t!"func sizeOfInt32Required(p unsafe.Pointer, f *structField) int {",
  t!"\tv := *(*int32)(p)",
  t!"\treturn sizeOfVarint(uint64(v)) + f.tagsize",
  t!"}",
  t!"func encodeInt32Required(b []byte, p unsafe.Pointer, f *structField) []byte {",
  t!"\tv := *(*int32)(p)",
  t!"\tb = appendVarint(b, f.wiretag)",
  t!"\tb = appendVarint(b, uint64(v))",
  t!"\treturn b",
  t!"}",
  t!"",
  t!"var int64RequiredCodec = codec{size: sizeOfInt64Required, encode: encodeInt64Required, decode: decodeInt64}",
  t!"",
  t!"func sizeOfInt64Required(p unsafe.Pointer, f *structField) int {",
  t!"\tv := *(*int64)(p)",
  t!"\treturn sizeOfVarint(uint64(v)) + f.tagsize",
  t!"}",
  t!"func encodeInt64Required(b []byte, p unsafe.Pointer, f *structField) []byte {",
  t!"\tv := *(*int64)(p)",
  t!"\tb = appendVarint(b, f.wiretag)",
  t!"\tb = appendVarint(b, uint64(v))",
  t!"\treturn b",
  t!"}",
  t!"",
  t!"var uint32RequiredCodec = codec{size: sizeOfUint32Required, encode: encodeUint32Required, decode: decodeUint32}",
  t!"",
  t!"func sizeOfUint32Required(p unsafe.Pointer, f *structField) int {",
  t!"\tv := *(*uint32)(p)",
  t!"\treturn sizeOfVarint(uint64(v)) + f.tagsize",
  t!"}",
  t!"func encodeUint32Required(b []byte, p unsafe.Pointer, f *structField) []byte {",
  t!"\tv := *(*uint32)(p)",
  t!"\tb = appendVarint(b, f.wiretag)",
  t!"\tb = appendVarint(b, uint64(v))",
  t!"\treturn b",
  t!"}",
  t!"",
  t!"var fixed32RequiredCodec = codec{size: sizeOfFixed32Required, encode: encodeFixed32Required, decode: decodeFixed32}",
  t!"",
  t!"func sizeOfFixed32Required(p unsafe.Pointer, f *structField) int {",
  t!"\treturn 4 + f.tagsize",
  t!"}",
  t!"func encodeFixed32Required(b []byte, p unsafe.Pointer, f *structField) []byte {",
  t!"\tv := *(*uint32)(p)",
  t!"\tb = appendVarint(b, f.wiretag)",
  t!"\tb = encodeLE32(b, v)",
  t!"\treturn b",
  t!"}",
  t!"",
  t!"var uint64RequiredCodec = codec{size: sizeOfUint64Required, encode: encodeUint64Required, decode: decodeUint64}",
  t!"",
  t!"func sizeOfUint64Required(p unsafe.Pointer, f *structField) int {",
  t!"\tv := *(*uint64)(p)",
  t!"\treturn sizeOfVarint(v) + f.tagsize",
  t!"}",
  t!"func encodeUint64Required(b []byte, p unsafe.Pointer, f *structField) []byte {",
  t!"\tv := *(*uint64)(p)",
  t!"\tb = appendVarint(b, f.wiretag)",
  t!"\tb = appendVarint(b, v)",
  t!"\treturn b",
  t!"}",
  t!"",
  t!"var fixed64RequiredCodec = codec{size: sizeOfFixed64Required, encode: encodeFixed64Required, decode: decodeFixed64}",
  t!"",
  t!"func sizeOfFixed64Required(p unsafe.Pointer, f *structField) int {",
  t!"\treturn 8 + f.tagsize",
  t!"}",
  t!"func encodeFixed64Required(b []byte, p unsafe.Pointer, f *structField) []byte {",
  t!"\tv := *(*uint64)(p)",
  t!"\tb = appendVarint(b, f.wiretag)",
  t!"\tb = encodeLE64(b, v)",
  t!"\treturn b",
  t!"}",
  t!"",
  t!"var zigzag32RequiredCodec = codec{size: sizeOfZigzag32Required, encode: encodeZigzag32Required, decode: decodeZigzag32}",
  t!"",
  t!"func sizeOfZigzag32Required(p unsafe.Pointer, f *structField) int {",
  t!"\tv := *(*int32)(p)",
  t!"\treturn sizeOfVarint(encodeZigZag64(int64(v))) + f.tagsize",
  t!"}",
  t!"func encodeZigzag32Required(b []byte, p unsafe.Pointer, f *structField) []byte {",
  t!"\tv := *(*int32)(p)",
  t!"\tb = appendVarint(b, f.wiretag)",
  t!"\tb = appendVarint(b, encodeZigZag64(int64(v)))",
  t!"\treturn b",
  t!"}",
  t!"",
  t!"var zigzag64RequiredCodec = codec{size: sizeOfZigzag64Required, encode: encodeZigzag64Required, decode: decodeZigzag64}",
  t!"",
  t!"func sizeOfZigzag64Required(p unsafe.Pointer, f *structField) int {",
  t!"\tv := *(*int64)(p)",
  t!"\treturn sizeOfVarint(encodeZigZag64(v)) + f.tagsize",
  t!"}",
  t!"func encodeZigzag64Required(b []byte, p unsafe.Pointer, f *structField) []byte {",
  t!"\tv := *(*int64)(p)",
  t!"\tb = appendVarint(b, f.wiretag)",
  t!"\tb = appendVarint(b, encodeZigZag64(v))",
  t!"\treturn b",
  t!"}"]

/-- proto/option_codec.go -/
def optionCodecGo : Text := lines [
  t!"// Code generated by gen/option/main.go. DO NOT EDIT.",
  t!"",
  t!"package proto",
  t!"",
  t!"import \"unsafe\"",
  t!"",
  t!"var boolOptionCodec = codec{",
  t!"\tsize:   sizeOfBoolOption,",
  t!"\tencode: encodeBoolOption,",
  t!"\tdecode: decodeBoolOption,",
  t!"}",
  t!"",
  t!"func sizeOfBoolOption(p unsafe.Pointer, f *structField) int {",
  t!"\to := (*Option[bool])(p)",
  t!"\tif o.IsSome() {",
  t!"\t\treturn sizeOfBoolRequired(o.unsafePointer(), f)",
  t!"\t}",
  t!"\treturn 0",
  t!"}",
  t!"",
  t!"func encodeBoolOption(b []byte, p unsafe.Pointer, f *structField) []byte {",
  t!"\to := (*Option[bool])(p)",
  t!"\tif o.IsSome() {",
  t!"\t\treturn encodeBoolRequired(b, o.unsafePointer(), f)",
  t!"\t}",
  t!"\treturn b",
  t!"}",
  t!"",
  t!"func decodeBoolOption(b []byte, p unsafe.Pointer) (int, error) {",
  t!"\tv := (*Option[bool])(p)",
  t!"\tv.some = true",
  t!"\treturn decodeBool(b, v.unsafePointer())",
  t!"}",
  t!"",
  t!"var stringOptionCodec = codec{",
  t!"\tsize:   sizeOfStringOption,",
  t!"\tencode: encodeStringOption,",
  t!"\tdecode: decodeStringOption,",
  t!"}",
  t!"",
  t!"func sizeOfStringOption(p unsafe.Pointer, f *structField) int {",
  t!"\to := (*Option[string])(p)",
  t!"\tif o.IsSome() {",
  t!"\t\treturn sizeOfStringRequired(o.unsafePointer(), f)",
  t!"\t}",
  t!"\treturn 0",
  t!"}",
  t!"",
  t!"func encodeStringOption(b []byte, p unsafe.Pointer, f *structField) []byte {",
  t!"\to := (*Option[string])(p)",
  t!"\tif o.IsSome() {",
  t!"\t\treturn encodeStringRequired(b, o.unsafePointer(), f)",
  t!"\t}",
  t!"\treturn b",
  t!"}",
  t!"",
  t!"func decodeStringOption(b []byte, p unsafe.Pointer) (int, error) {",
  t!"\tv := (*Option[string])(p)",
  t!"\tv.some = true",
  t!"\treturn decodeString(b, v.unsafePointer())",
  t!"}",
  t!"",
  t!"var int32OptionCodec = codec{",
  t!"\tsize:   sizeOfInt32Option,",
  t!"\tencode: encodeInt32Option,",
  t!"\tdecode: decodeInt32Option,",
  t!"}",
  t!"",
  t!"func sizeOfInt32Option(p unsafe.Pointer, f *structField) int {",
  t!"\to := (*Option[int32])(p)",
  t!"\tif o.IsSome() {",
  t!"\t\treturn sizeOfInt32Required(o.unsafePointer(), f)",
  t!"\t}",
  t!"\treturn 0",
  t!"}",
  t!"",
  t!"func encodeInt32Option(b []byte, p unsafe.Pointer, f *structField) []byte {",
  t!"\to := (*Option[int32])(p)",
  t!"\tif o.IsSome() {",
  t!"\t\treturn encodeInt32Required(b, o.unsafePointer(), f)",
  t!"\t}",
  t!"\treturn b",
  t!"}",
  t!"",
  t!"func decodeInt32Option(b []byte, p unsafe.Pointer) (int, error) {",
  t!"\tv := (*Option[int32])(p)",
  t!"\tv.some = true",
  t!"\treturn decodeInt32(b, v.unsafePointer())",
  t!"}",
  t!"",
  t!"var uint32OptionCodec = codec{",
  t!"\tsize:   sizeOfUint32Option,",
  t!"\tencode: encodeUint32Option,",
  t!"\tdecode: decodeUint32Option,",
  t!"}",
  t!"",
  t!"func sizeOfUint32Option(p unsafe.Pointer, f *structField) int {",
  t!"\to := (*Option[uint32])(p)",
  t!"\tif o.IsSome() {",
  t!"\t\treturn sizeOfUint32Required(o.unsafePointer(), f)",
  t!"\t}",
  t!"\treturn 0",
  t!"}",
  t!"",
  t!"func encodeUint32Option(b []byte, p unsafe.Pointer, f *structField) []byte {",
  t!"\to := (*Option[uint32])(p)",
  t!"\tif o.IsSome() {",
  t!"\t\treturn encodeUint32Required(b, o.unsafePointer(), f)",
  t!"\t}",
  t!"\treturn b",
  t!"}",
  t!"",
  t!"func decodeUint32Option(b []byte, p unsafe.Pointer) (int, error) {",
  t!"\tv := (*Option[uint32])(p)",
  t!"\tv.some = true",
  t!"\treturn decodeUint32(b, v.unsafePointer())",
  t!"}",
  t!"",
  t!"var int64OptionCodec = codec{",
  t!"\tsize:   sizeOfInt64Option,",
  t!"\tencode: encodeInt64Option,",
  t!"\tdecode: decodeInt64Option,",
  t!"}",
  t!"",
  t!"func sizeOfInt64Option(p unsafe.Pointer, f *structField) int {",
  t!"\to := (*Option[int64])(p)",
  t!"\tif o.IsSome() {",
  t!"\t\treturn sizeOfInt64Required(o.unsafePointer(), f)",
  t!"\t}",
  t!"\treturn 0",
  t!"}",
  t!"",
  t!"func encodeInt64Option(b []byte, p unsafe.Pointer, f *structField) []byte {",
  t!"\to := (*Option[int64])(p)",
  t!"\tif o.IsSome() {",
  t!"\t\treturn encodeInt64Required(b, o.unsafePointer(), f)",
  t!"\t}",
  t!"\treturn b",
  t!"}",
  t!"",
  t!"func decodeInt64Option(b []byte, p unsafe.Pointer) (int, error) {",
  t!"\tv := (*Option[int64])(p)",
  t!"\tv.some = true",
  t!"\treturn decodeInt64(b, v.unsafePointer())",
  t!"}",
  t!"",
  t!"var uint64OptionCodec = codec{",
  t!"\tsize:   sizeOfUint64Option,",
  t!"\tencode: encodeUint64Option,",
  t!"\tdecode: decodeUint64Option,",
  t!"}",
  t!"",
  t!"func sizeOfUint64Option(p unsafe.Pointer, f *structField) int {",
  t!"\to := (*Option[uint64])(p)",
  t!"\tif o.IsSome() {",
  t!"\t\treturn sizeOfUint64Required(o.unsafePointer(), f)",
  t!"\t}",
  t!"\treturn 0",
  t!"}",
  t!"",
  t!"func encodeUint64Option(b []byte, p unsafe.Pointer, f *structField) []byte {",
  t!"\to := (*Option[uint64])(p)",
  t!"\tif o.IsSome() {",
  t!"\t\treturn encodeUint64Required(b, o.unsafePointer(), f)",
  t!"\t}",
  t!"\treturn b",
  t!"}",
  t!"",
  t!"func decodeUint64Option(b []byte, p unsafe.Pointer) (int, error) {",
  t!"\tv := (*Option[uint64])(p)",
  t!"\tv.some = true",
  t!"\treturn decodeUint64(b, v.unsafePointer())",
  t!"}",
  t!"",
  t!"var zigzag32OptionCodec = codec{",
  t!"\tsize:   sizeOfZigzag32Option,",
  t!"\tencode: encodeZigzag32Option,",
  t!"\tdecode: decodeZigzag32Option,",
  t!"}",
  t!"",
  t!"func sizeOfZigzag32Option(p unsafe.Pointer, f *structField) int {",
  t!"\to := (*Option[int32])(p)",
  t!"\tif o.IsSome() {",
  t!"\t\treturn sizeOfZigzag32Required(o.unsafePointer(), f)",
  t!"\t}",
  t!"\treturn 0",
  t!"}",
  t!"",
  t!"func encodeZigzag32Option(b []byte, p unsafe.Pointer, f *structField) []byte {",
  t!"\to := (*Option[int32])(p)",
  t!"\tif o.IsSome() {",
  t!"\t\treturn encodeZigzag32Required(b, o.unsafePointer(), f)",
  t!"\t}",
  t!"\treturn b",
  t!"}",
  t!"",
  t!"func decodeZigzag32Option(b []byte, p unsafe.Pointer) (int, error) {",
  t!"\tv := (*Option[int32])(p)",
  t!"\tv.some = true",
  t!"\treturn decodeZigzag32(b, v.unsafePointer())",
  t!"}",
  t!"",
  t!"var zigzag64OptionCodec = codec{",
  t!"\tsize:   sizeOfZigzag64Option,",
  t!"\tencode: encodeZigzag64Option,",
  t!"\tdecode: decodeZigzag64Option,",
  t!"}",
  t!"",
  t!"func sizeOfZigzag64Option(p unsafe.Pointer, f *structField) int {",
  t!"\to := (*Option[int64])(p)",
  t!"\tif o.IsSome() {",
  t!"\t\treturn sizeOfZigzag64Required(o.unsafePointer(), f)",
  t!"\t}",
  t!"\treturn 0",
  t!"}",
  t!"",
  t!"func encodeZigzag64Option(b []byte, p unsafe.Pointer, f *structField) []byte {",
  t!"\to := (*Option[int64])(p)",
  t!"\tif o.IsSome() {",
  t!"\t\treturn encodeZigzag64Required(b, o.unsafePointer(), f)",
  t!"\t}",
  t!"\treturn b",
  t!"}",
  t!"",
  t!"func decodeZigzag64Option(b []byte, p unsafe.Pointer) (int, error) {",
  t!"\tv := (*Option[int64])(p)",
  t!"\tv.some = true",
  t!"\treturn decodeZigzag64(b, v.unsafePointer())",
  t!"}",
  t!"",
  t!"var fixed32OptionCodec = codec{",
  t!"\tsize:   sizeOfFixed32Option,",
  t!"\tencode: encodeFixed32Option,",
  t!"\tdecode: decodeFixed32Option,",
  t!"}",
  t!"",
  t!"func sizeOfFixed32Option(p unsafe.Pointer, f *structField) int {",
  t!"\to := (*Option[uint32])(p)",
  t!"\tif o.IsSome() {",
  t!"\t\treturn sizeOfFixed32Required(o.unsafePointer(), f)",
  t!"\t}",
  t!"\treturn 0",
  t!"}",
  t!"",
  t!"func encodeFixed32Option(b []byte, p unsafe.Pointer, f *structField) []byte {",
  t!"\to := (*Option[uint32])(p)",
  t!"\tif o.IsSome() {",
  t!"\t\treturn encodeFixed32Required(b, o.unsafePointer(), f)",
  t!"\t}",
  t!"\treturn b",
  t!"}",
  t!"",
  t!"func decodeFixed32Option(b []byte, p unsafe.Pointer) (int, error) {",
  t!"\tv := (*Option[uint32])(p)",
  t!"\tv.some = true",
  t!"\treturn decodeFixed32(b, v.unsafePointer())",
  t!"}",
  t!"",
  t!"var fixed64OptionCodec = codec{",
  t!"\tsize:   sizeOfFixed64Option,",
  t!"\tencode: encodeFixed64Option,",
  t!"\tdecode: decodeFixed64Option,",
  t!"}",
  t!"",
  t!"func sizeOfFixed64Option(p unsafe.Pointer, f *structField) int {",
  t!"\to := (*Option[uint64])(p)",
  t!"\tif o.IsSome() {",
  t!"\t\treturn sizeOfFixed64Required(o.unsafePointer(), f)",
  t!"\t}",
  t!"\treturn 0",
  t!"}",
  t!"",
  t!"func encodeFixed64Option(b []byte, p unsafe.Pointer, f *structField) []byte {",
  t!"\to := (*Option[uint64])(p)",
  t!"\tif o.IsSome() {",
  t!"\t\treturn encodeFixed64Required(b, o.unsafePointer(), f)",
  t!"\t}",
  t!"\treturn b",
  t!"}",
  t!"",
  t!"func decodeFixed64Option(b []byte, p unsafe.Pointer) (int, error) {",
  t!"\tv := (*Option[uint64])(p)",
  t!"\tv.some = true",
  t!"\treturn decodeFixed64(b, v.unsafePointer())",
  t!"}",
  t!"",
  t!"var float32OptionCodec = codec{",
  t!"\tsize:   sizeOfFloat32Option,",
  t!"\tencode: encodeFloat32Option,",
  t!"\tdecode: decodeFloat32Option,",
  t!"}",
  t!"",
  t!"func sizeOfFloat32Option(p unsafe.Pointer, f *structField) int {",
  t!"\to := (*Option[float32])(p)",
  t!"\tif o.IsSome() {",
  t!"\t\treturn sizeOfFloat32Required(o.unsafePointer(), f)",
  t!"\t}",
  t!"\treturn 0",
  t!"}",
  t!"",
  t!"func encodeFloat32Option(b []byte, p unsafe.Pointer, f *structField) []byte {",
  t!"\to := (*Option[float32])(p)",
  t!"\tif o.IsSome() {",
  t!"\t\treturn encodeFloat32Required(b, o.unsafePointer(), f)",
  t!"\t}",
  t!"\treturn b",
  t!"}",
  t!"",
  t!"func decodeFloat32Option(b []byte, p unsafe.Pointer) (int, error) {",
  t!"\tv := (*Option[float32])(p)",
  t!"\tv.some = true",
  t!"\treturn decodeFloat32(b, v.unsafePointer())",
  t!"}",
  t!"",
  t!"var float64OptionCodec = codec{",
  t!"\tsize:   sizeOfFloat64Option,",
  t!"\tencode: encodeFloat64Option,",
  t!"\tdecode: decodeFloat64Option,",
  t!"}",
  t!"",
  t!"func sizeOfFloat64Option(p unsafe.Pointer, f *structField) int {",
  t!"\to := (*Option[float64])(p)",
  t!"\tif o.IsSome() {",
  t!"\t\treturn sizeOfFloat64Required(o.unsafePointer(), f)",
  t!"\t}",
  t!"\treturn 0",
  t!"}",
  t!"",
  t!"func encodeFloat64Option(b []byte, p unsafe.Pointer, f *structField) []byte {",
  t!"\to := (*Option[float64])(p)",
  t!"\tif o.IsSome() {",
  t!"\t\treturn encodeFloat64Required(b, o.unsafePointer(), f)",
  t!"\t}",
  t!"\treturn b",
  t!"}",
  t!"",
  t!"func decodeFloat64Option(b []byte, p unsafe.Pointer) (int, error) {",
  t!"\tv := (*Option[float64])(p)",
  t!"\tv.some = true",
  t!"\treturn decodeFloat64(b, v.unsafePointer())",
  t!"}"]

/-- proto/option.go:23-25 -/
def isSomeGo : Text := lines [
  t!"func (o Option[T]) IsSome() bool {",
  t!"\treturn o.some",
  t!"}"]

/-- proto/option.go:46-48 -/
def unsafePointerGo : Text := lines [
  t!"func (o *Option[T]) unsafePointer() unsafe.Pointer {",
  t!"\treturn unsafe.Pointer(&o.value)",
  t!"}"]

/-- proto/struct.go:1-149 -/
def structGo : Text := lines [
  t!"package proto",
  t!"",
  t!"import (",
  t!"\t\"fmt\"",
  t!"\t\"io\"",
  t!"\t\"strconv\"",
  t!"\t\"strings\"",
  t!"\t\"unsafe\"",
  t!")",
  t!"",
  t!"type structInfo struct {",
  t!"\tfields     []*structField",
  t!"\tfieldIndex map[fieldNumber]*structField",
  t!"}",
  t!"",
  t!"type structField struct {",
  t!"\toffset  uintptr",
  t!"\twiretag uint64",
  t!"\tcodec   *codec",
  t!"\ttagsize int",
  t!"}",
  t!"",
  t!"func (f *structField) fieldNumber() fieldNumber {",
  t!"\treturn fieldNumber(f.wiretag >> 3)",
  t!"}",
  t!"",
  t!"func (f *structField) wireType() wireType {",
  t!"\treturn wireType(f.wiretag & 7)",
  t!"}",
  t!"",
  t!"func (f *structField) pointer(p unsafe.Pointer) unsafe.Pointer {",
  t!"\treturn unsafe.Pointer(uintptr(p) + f.offset)",
  t!"}",
  t!"",
  t!"func (info *structInfo) size(p unsafe.Pointer) int {",
  t!"\tif p == nil {",
  t!"\t\treturn 0",
  t!"\t}",
  t!"\tn := 0",
  t!"\tfor _, f := range info.fields {",
  t!"\t\tn += f.codec.size(f.pointer(p), f)",
  t!"\t}",
  t!"\treturn n",
  t!"}",
  t!"",
  t!"func (info *structInfo) encode(b []byte, p unsafe.Pointer) []byte {",
  t!"\tif p == nil {",
  t!"\t\treturn b",
  t!"\t}",
  t!"\tfor _, f := range info.fields {",
  t!"\t\tb = f.codec.encode(b, f.pointer(p), f)",
  t!"\t}",
  t!"\treturn b",
  t!"}",
  t!"",
  t!"func (info *structInfo) decode(b []byte, p unsafe.Pointer) (int, error) {",
  t!"\toffset := 0",
  t!"\tfor offset < len(b) {",
  t!"\t\tfieldNumber, wireType, n, err := decodeTag(b[offset:])",
  t!"\t\toffset += n",
  t!"\t\tif err != nil {",
  t!"\t\t\treturn offset, err",
  t!"\t\t}",
  t!"",
  t!"\t\tf := info.fieldIndex[fieldNumber]",
  t!"\t\tif f == nil {",
  t!"\t\t\tskip := 0",
  t!"\t\t\tsize := uint64(0)",
  t!"\t\t\tswitch wireType {",
  t!"\t\t\tcase varint:",
  t!"\t\t\t\t_, skip, err = decodeVarint(b[offset:])",
  t!"\t\t\tcase varlen:",
  t!"\t\t\t\tsize, skip, err = decodeVarint(b[offset:])",
  t!"\t\t\t\tif err == nil {",
  t!"\t\t\t\t\tif size > uint64(len(b)-skip) {",
  t!"\t\t\t\t\t\terr = io.ErrUnexpectedEOF",
  t!"\t\t\t\t\t} else {",
  t!"\t\t\t\t\t\tskip += int(size)",
  t!"\t\t\t\t\t}",
  t!"\t\t\t\t}",
  t!"\t\t\tcase fixed32:",
  t!"\t\t\t\tskip = 4",
  t!"\t\t\tcase fixed64:",
  t!"\t\t\t\tskip = 8",
  t!"\t\t\tdefault:",
  t!"\t\t\t\terr = ErrWireTypeUnknown",
  t!"\t\t\t}",
  t!"\t\t\tif (offset + skip) <= len(b) {",
  t!"\t\t\t\toffset += skip",
  t!"\t\t\t} else {",
  t!"\t\t\t\toffset, err = len(b), io.ErrUnexpectedEOF",
  t!"\t\t\t}",
  t!"\t\t\tif err != nil {",
  t!"\t\t\t\treturn offset, fieldError(fieldNumber, wireType, err)",
  t!"\t\t\t}",
  t!"\t\t\tcontinue",
  t!"\t\t}",
  t!"",
  t!"\t\tif wireType != f.wireType() {",
  t!"\t\t\treturn offset, fieldError(fieldNumber, wireType, fmt.Errorf(\"expected wire type %d\", f.wireType()))",
  t!"\t\t}",
  t!"",
  t!"\t\t// `data` will only contain the section of the input buffer where",
  t!"\t\t// the data for the next field is available. This is necessary to",
  t!"\t\t// limit how many bytes will be consumed by embedded messages.",
  t!"\t\tvar data []byte",
  t!"\t\tswitch wireType {",
  t!"\t\tcase varint:",
  t!"\t\t\t_, n, err := decodeVarint(b[offset:])",
  t!"\t\t\tif err != nil {",
  t!"\t\t\t\treturn offset, fieldError(fieldNumber, wireType, err)",
  t!"\t\t\t}",
  t!"\t\t\tdata = b[offset : offset+n]",
  t!"",
  t!"\t\tcase varlen:",
  t!"\t\t\tl, n, err := decodeVarint(b[offset:])",
  t!"\t\t\tif err != nil {",
  t!"\t\t\t\treturn offset + n, fieldError(fieldNumber, wireType, err)",
  t!"\t\t\t}",
  t!"\t\t\tif l > uint64(len(b)-(offset+n)) {",
  t!"\t\t\t\treturn len(b), fieldError(fieldNumber, wireType, io.ErrUnexpectedEOF)",
  t!"\t\t\t}",
  t!"\t\t\tdata = b[offset : offset+n+int(l)]",
  t!"",
  t!"\t\tcase fixed32:",
  t!"\t\t\tif (offset + 4) > len(b) {",
  t!"\t\t\t\treturn len(b), fieldError(fieldNumber, wireType, io.ErrUnexpectedEOF)",
  t!"\t\t\t}",
  t!"\t\t\tdata = b[offset : offset+4]",
  t!"",
  t!"\t\tcase fixed64:",
  t!"\t\t\tif (offset + 8) > len(b) {",
  t!"\t\t\t\treturn len(b), fieldError(fieldNumber, wireType, io.ErrUnexpectedEOF)",
  t!"\t\t\t}",
  t!"\t\t\tdata = b[offset : offset+8]",
  t!"",
  t!"\t\tdefault:",
  t!"\t\t\treturn offset, fieldError(fieldNumber, wireType, ErrWireTypeUnknown)",
  t!"\t\t}",
  t!"",
  t!"\t\tn, err = f.codec.decode(data, f.pointer(p))",
  t!"\t\toffset += n",
  t!"\t\tif err != nil {",
  t!"\t\t\treturn offset, fieldError(fieldNumber, wireType, err)",
  t!"\t\t}",
  t!"\t}",
  t!"",
  t!"\treturn offset, nil",
  t!"}"]

/-- proto/walker.go:280-282 -/
def derefGo : Text := lines [
  t!"func deref(p unsafe.Pointer) unsafe.Pointer {",
  t!"\treturn *(*unsafe.Pointer)(p)",
  t!"}"]

/-- proto/slice.go:90-99 -/
def growSliceGo : Text := lines [
  t!"func growSlice(t reflect.Type, s *Slice) Slice {",
  t!"\tcap := 2 * s.Cap()",
  t!"\tif cap == 0 {",
  t!"\t\tcap = 10",
  t!"\t}",
  t!"\tp := pointer(t)",
  t!"\td := MakeSlice(p, s.Len(), cap)",
  t!"\tCopySlice(p, d, *s)",
  t!"\treturn d",
  t!"}"]

/-- proto/error.go:23-29 -/
def fieldErrorGo : Text := lines [
  t!"func fieldError(f fieldNumber, t wireType, err error) error {",
  t!"\treturn &UnmarshalFieldError{",
  t!"\t\tFieldNumber: int(f),",
  t!"\t\tWireType:    int(t),",
  t!"\t\tErr:         err,",
  t!"\t}",
  t!"}"]

/-- proto/walker.go:88-96 -/
def messageSizeGo : Text := lines [
  t!"\tc.size = func(p unsafe.Pointer, f *structField) int {",
  t!"\t\tp = deref(p)",
  t!"\t\tif p != nil {",
  t!"\t\t\tn := info.size(p)",
  t!"\t\t\tn += sizeOfVarint(uint64(n)) + f.tagsize",
  t!"\t\t\treturn n",
  t!"\t\t}",
  t!"\t\treturn 0",
  t!"\t}"]

/-- proto/walker.go:97-106 -/
def messageEncodeGo : Text := lines [
  t!"\tc.encode = func(b []byte, p unsafe.Pointer, f *structField) []byte {",
  t!"\t\tp = deref(p)",
  t!"\t\tif p != nil {",
  t!"\t\t\tb = appendVarint(b, f.wiretag)",
  t!"\t\t\tn := info.size(p)",
  t!"\t\t\tb = appendVarint(b, uint64(n))",
  t!"\t\t\treturn info.encode(b, p)",
  t!"\t\t}",
  t!"\t\treturn b",
  t!"\t}"]

/-- proto/walker.go:107-118 -/
def messageDecodeGo : Text := lines [
  t!"\tc.decode = func(b []byte, p unsafe.Pointer) (int, error) {",
  t!"\t\tv := (*unsafe.Pointer)(p)",
  t!"\t\tif *v == nil {",
  t!"\t\t\t*v = unsafe.Pointer(reflect.New(elem).Pointer())",
  t!"\t\t}",
  t!"\t\t_, n, err := decodeVarint(b)",
  t!"\t\tif err != nil {",
  t!"\t\t\treturn n, err",
  t!"\t\t}",
  t!"\t\tl, err := info.decode(b[n:], *v)",
  t!"\t\treturn n + l, err",
  t!"\t}"]

/-- proto/walker.go:343-349 -/
def pointerSizeGo : Text := lines [
  t!"\treturn func(p unsafe.Pointer, f *structField) int {",
  t!"\t\tp = deref(p)",
  t!"\t\tif p != nil {",
  t!"\t\t\treturn c.size(p, f)",
  t!"\t\t}",
  t!"\t\treturn 0",
  t!"\t}"]

/-- proto/walker.go:353-359 -/
def pointerEncodeGo : Text := lines [
  t!"\treturn func(b []byte, p unsafe.Pointer, f *structField) []byte {",
  t!"\t\tp = deref(p)",
  t!"\t\tif p != nil {",
  t!"\t\t\treturn c.encode(b, p, f)",
  t!"\t\t}",
  t!"\t\treturn b",
  t!"\t}"]

/-- proto/walker.go:364-370 -/
def pointerDecodeGo : Text := lines [
  t!"\treturn func(b []byte, p unsafe.Pointer) (int, error) {",
  t!"\t\tv := (*unsafe.Pointer)(p)",
  t!"\t\tif *v == nil {",
  t!"\t\t\t*v = unsafe.Pointer(reflect.New(t).Pointer())",
  t!"\t\t}",
  t!"\t\treturn c.decode(b, *v)",
  t!"\t}"]

/-- proto/slice.go:33-42 -/
def sliceSizeGo : Text := lines [
  t!"\treturn func(p unsafe.Pointer, sf *structField) int {",
  t!"\t\tn := 0",
  t!"\t\tif v := (*Slice)(p); v != nil {",
  t!"\t\t\tfor i := 0; i < v.Len(); i++ {",
  t!"\t\t\t\telem := v.Index(i, elemSize)",
  t!"\t\t\t\tn += c.size(elem, sf)",
  t!"\t\t\t}",
  t!"\t\t}",
  t!"\t\treturn n",
  t!"\t}"]

/-- proto/slice.go:47-55 -/
def sliceEncodeGo : Text := lines [
  t!"\treturn func(b []byte, p unsafe.Pointer, sf *structField) []byte {",
  t!"\t\tif s := (*Slice)(p); s != nil {",
  t!"\t\t\tfor i := 0; i < s.Len(); i++ {",
  t!"\t\t\t\telem := s.Index(i, elemSize)",
  t!"\t\t\t\tb = c.encode(b, elem, sf)",
  t!"\t\t\t}",
  t!"\t\t}",
  t!"\t\treturn b",
  t!"\t}"]

/-- proto/slice.go:61-74 -/
def sliceDecodeGo : Text := lines [
  t!"\treturn func(b []byte, p unsafe.Pointer) (int, error) {",
  t!"\t\ts := (*Slice)(p)",
  t!"\t\ti := s.Len()",
  t!"",
  t!"\t\tif i == s.Cap() {",
  t!"\t\t\t*s = growSlice(elemType, s)",
  t!"\t\t}",
  t!"",
  t!"\t\tn, err := c.decode(b, s.Index(i, elemSize))",
  t!"\t\tif err == nil {",
  t!"\t\t\ts.SetLen(i + 1)",
  t!"\t\t}",
  t!"\t\treturn n, err",
  t!"\t}"]

/-- proto/map.go:35-55 -/
def mapSizeGo : Text := lines [
  t!"\treturn func(p unsafe.Pointer, sf *structField) int {",
  t!"\t\tif p == nil {",
  t!"\t\t\treturn 0",
  t!"\t\t}",
  t!"",
  t!"\t\tp = *(*unsafe.Pointer)(p)",
  t!"",
  t!"\t\tn := 0",
  t!"\t\tm := MapIter{}",
  t!"\t\tdefer m.Done()",
  t!"",
  t!"\t\tfor m.Init(pointer(t), p); m.HasNext(); m.Next() {",
  t!"\t\t\tkeySize := keyCodec.size(m.Key(), f.keyField)",
  t!"\t\t\tvalSize := valCodec.size(m.Value(), f.valField)",
  t!"\t\t\tn += mapTagSize + sizeOfVarint(uint64(keySize+valSize)) + keySize + valSize",
  t!"\t\t}",
  t!"\t\tif n == 0 {",
  t!"\t\t\tn = mapTagSize + zeroSize",
  t!"\t\t}",
  t!"\t\treturn n",
  t!"\t}"]

/-- proto/map.go:64-93 -/
def mapEncodeGo : Text := lines [
  t!"\treturn func(b []byte, p unsafe.Pointer, sf *structField) []byte {",
  t!"\t\tif p == nil {",
  t!"\t\t\treturn b",
  t!"\t\t}",
  t!"\t\tp = *(*unsafe.Pointer)(p)",
  t!"",
  t!"\t\torigLen := len(b)",
  t!"",
  t!"\t\tm := MapIter{}",
  t!"\t\tdefer m.Done()",
  t!"",
  t!"\t\tfor m.Init(pointer(t), p); m.HasNext(); m.Next() {",
  t!"\t\t\tkey := m.Key()",
  t!"\t\t\tval := m.Value()",
  t!"",
  t!"\t\t\tkeySize := keyCodec.size(key, f.keyField)",
  t!"\t\t\tvalSize := keyCodec.size(val, f.valField)",
  t!"\t\t\telemSize := keySize + valSize",
  t!"",
  t!"\t\t\tb = append(b, mapTag...)",
  t!"\t\t\tb = appendVarint(b, uint64(elemSize))",
  t!"\t\t\tb = keyCodec.encode(b, key, f.keyField)",
  t!"\t\t\tb = valCodec.encode(b, val, f.valField)",
  t!"\t\t}",
  t!"",
  t!"\t\tif len(b) == origLen {",
  t!"\t\t\tb = append(b, zero...)",
  t!"\t\t}",
  t!"\t\treturn b",
  t!"\t}"]

/-- proto/map.go:117-143 -/
def mapDecodeGo : Text := lines [
  t!"\treturn func(b []byte, p unsafe.Pointer) (int, error) {",
  t!"\t\tm := (*unsafe.Pointer)(p)",
  t!"\t\tif *m == nil {",
  t!"\t\t\t*m = MakeMap(mtype, 10)",
  t!"\t\t}",
  t!"\t\tif len(b) == 0 {",
  t!"\t\t\treturn 0, nil",
  t!"\t\t}",
  t!"",
  t!"\t\ts := pointer(structPool.Get())",
  t!"\t\tif s == nil {",
  t!"\t\t\ts = unsafe.Pointer(reflect.New(structType).Pointer())",
  t!"\t\t}",
  t!"",
  t!"\t\t_, nl, err := decodeVarint(b)",
  t!"\t\tif err != nil {",
  t!"\t\t\treturn 0, err",
  t!"\t\t}",
  t!"\t\tn, err := info.decode(b[nl:], s)",
  t!"\t\tif err == nil {",
  t!"\t\t\tv := MapAssign(mtype, *m, s)",
  t!"\t\t\tAssign(vtype, v, unsafe.Pointer(uintptr(s)+valueOffset))",
  t!"\t\t}",
  t!"\t\tAssign(stype, s, structZero)",
  t!"\t\tstructPool.Put(s)",
  t!"\t\treturn n + nl, err",
  t!"\t}"]

/-- proto/proto.go:15-61 -/
def apiGo : Text := lines [
  t!"func Size(v interface{}) int {",
  t!"\tt, p := inspect(v)",
  t!"\tif t.Kind() != reflect.Ptr {",
  t!"\t\tpanic(fmt.Errorf(\"proto.Marshal(%T): not a pointer\", v))",
  t!"\t}",
  t!"\tt = t.Elem()",
  t!"\tinfo := cachedStructInfoOf(t)",
  t!"\treturn info.size(p)",
  t!"}",
  t!"",
  t!"func Marshal(v interface{}) ([]byte, error) {",
  t!"\tt, p := inspect(v)",
  t!"\tif t.Kind() != reflect.Ptr {",
  t!"\t\treturn nil, fmt.Errorf(\"proto.Marshal(%T): not a pointer\", v)",
  t!"\t}",
  t!"\tt = t.Elem()",
  t!"\tinfo := cachedStructInfoOf(t)",
  t!"\tb := make([]byte, 0, info.size(p))",
  t!"\tb = info.encode(b, p)",
  t!"\treturn b, nil",
  t!"}",
  t!"",
  t!"func Unmarshal(b []byte, v interface{}) error {",
  t!"\tif len(b) == 0 {",
  t!"\t\t// nothing to do",
  t!"\t\treturn nil",
  t!"\t}",
  t!"",
  t!"\tt, p := inspect(v)",
  t!"\tif t.Kind() != reflect.Pointer || p == nil {",
  t!"\t\treturn &InvalidUnmarshalError{Type: t}",
  t!"\t}",
  t!"\telem := t.Elem()",
  t!"\tif elem.Kind() != reflect.Struct {",
  t!"\t\treturn &InvalidUnmarshalError{Type: t}",
  t!"\t}",
  t!"\tc := cachedStructInfoOf(elem)",
  t!"",
  t!"\tn, err := c.decode(b, p)",
  t!"\tif err != nil {",
  t!"\t\treturn err",
  t!"\t}",
  t!"\tif n < len(b) {",
  t!"\t\treturn fmt.Errorf(\"proto.Unmarshal(%T): read=%d < buffer=%d\", v, n, len(b))",
  t!"\t}",
  t!"\treturn nil",
  t!"}"]

/-- proto/proto.go:68-70 -/
def inspectGo : Text := lines [
  t!"func inspect(v interface{}) (reflect.Type, unsafe.Pointer) {",
  t!"\treturn reflect.TypeOf(v), pointer(v)",
  t!"}"]

end Pb.Go
