{"id": "C01", "title": "Marshal then Unmarshal gives the message back", "statement": "For every message value of every supported message type, calling Unmarshal on the bytes returned by Marshal, with a freshly zeroed message of the same type as target, succeeds and yields a message equal to the original (presence, nil/empty bytes, order and contents of repeated fields, nested messages and maps included).", "quantifier": "all supported message types (including recursive ones), all values, all nesting depths and sizes", "why_tests_cant": "The set of (type, value) pairs is infinite; the suite checks about a dozen literals and two fuzz targets on fixed types.", "anchors": ["proto/proto.go:Marshal,Unmarshal", "proto/struct.go:structInfo.encode,structInfo.decode"]}
{"id": "C02", "title": "Size is exactly the length of Marshal's output", "statement": "For every value, Size(v) equals len(b) for the b returned by Marshal(v).", "quantifier": "all message types and values", "why_tests_cant": "A per-codec size error shows only for particular value magnitudes (varint boundaries) and codec combinations.", "anchors": ["proto/proto.go:Size,Marshal", "proto/struct.go:structInfo.size", "proto/size.go", "proto/map.go:mapSizeFuncOf,mapEncodeFuncOf"]}
{"id": "C03", "title": "Unmarshal is safe on arbitrary bytes", "statement": "For every byte string and every target message, Unmarshal returns nil or an error; it never indexes outside the input, never panics and never accesses a field's memory with the wrong Go type.", "quantifier": "all byte strings, all message types the library accepts, all well-typed prior contents of the target", "why_tests_cant": "Hostile inputs are unbounded; a fuzzer only samples them.", "anchors": ["proto/struct.go:structInfo.decode", "proto/decode.go", "proto/normal_codec.go", "proto/slice.go", "proto/map.go"]}
{"id": "C04", "title": "Unmarshal terminates, with nesting depth bounded by the input", "statement": "Unmarshal terminates on every input, does at most one loop iteration per input byte at each nesting level, and its nesting depth is at most half the input length plus one, even for recursive message types.", "quantifier": "all byte strings and message types", "why_tests_cant": "Termination and depth bounds are statements about all inputs.", "anchors": ["proto/struct.go:structInfo.decode", "proto/walker.go:structCodec"]}
{"id": "C05", "title": "A successful Unmarshal has accounted for every input byte", "statement": "If Unmarshal returns nil then the whole input was consumed: the input is a concatenation of complete records, each a tag followed by a payload of the announced wire type; the 'read < buffer' error is unreachable.", "quantifier": "all byte strings and message types", "why_tests_cant": "Needs an argument over every path of the decode loop.", "anchors": ["proto/struct.go:structInfo.decode", "proto/proto.go:Unmarshal"]}
{"id": "C06", "title": "Unknown fields are ignored wherever they occur", "statement": "Inserting a well-formed record whose field number the message does not declare, at any record boundary of an input, changes neither the error outcome nor the resulting message.", "quantifier": "all inputs, all unknown records, all insertion points", "why_tests_cant": "Insertion points and payloads are unbounded.", "anchors": ["proto/struct.go:structInfo.decode"]}
{"id": "C07", "title": "Concatenated inputs merge", "statement": "If Unmarshal(a, m) succeeds then Unmarshal(a++b, m) behaves exactly as Unmarshal(a, m) followed by Unmarshal(b, m): same error, same final message.", "quantifier": "all byte strings a, b, all messages m", "why_tests_cant": "A law over pairs of arbitrary inputs.", "anchors": ["proto/struct.go:structInfo.decode", "proto/proto.go:Unmarshal"]}
{"id": "C08", "title": "A truncated input is reported as truncated", "statement": "If Unmarshal accepts b, then for every prefix p of b, Unmarshal(p) either accepts (p ends on a record boundary) or fails with an error for which errors.Is(err, io.ErrUnexpectedEOF) holds; no other error and no misparse of the tail is possible.", "quantifier": "all accepted inputs and all their prefixes", "why_tests_cant": "TestUnarshalFromShortBuffer covers one 16-byte message.", "anchors": ["proto/struct.go:structInfo.decode", "proto/decode.go:decodeVarint"]}
{"id": "C09", "title": "Wire type mismatch on a declared field is an error naming the field", "statement": "If the next record of the input carries a declared field number with a wire type other than the field's, Unmarshal fails with an UnmarshalFieldError carrying that field number and wire type, and that field is left as it was.", "quantifier": "all inputs, fields and wrong wire types", "why_tests_cant": "All combinations of inputs and schema.", "anchors": ["proto/struct.go:structInfo.decode", "proto/error.go:fieldError"]}
{"id": "C10", "title": "Unsupported wire types are rejected", "statement": "A record with an undeclared field number and wire type 3, 4, 6 or 7 makes Unmarshal fail with ErrWireTypeUnknown (wrapped with the field number), at whatever record boundary it occurs.", "quantifier": "all inputs and positions", "why_tests_cant": "Same.", "anchors": ["proto/struct.go:structInfo.decode", "proto/error.go:ErrWireTypeUnknown"]}
{"id": "C11", "title": "Marshal output follows the protobuf encoding specification", "statement": "For every supported message, Marshal returns the protobuf wire encoding of its fields in declaration order: tag varint, then the payload mandated for the field's protobuf type, nested messages and map entries length-prefixed with their exact encoded length.", "quantifier": "all supported message types and values", "why_tests_cant": "Interoperability needs every value, not samples.", "anchors": ["proto/struct.go:structInfo.encode", "proto/normal_codec.go", "proto/required_codec.go", "proto/option_codec.go", "proto/walker.go", "proto/map.go"]}
{"id": "C12", "title": "Varints are written canonically", "statement": "Every 64-bit integer is written as its minimal base-128 little-endian form, of the length used in Size, between 1 and 10 bytes.", "quantifier": "all 2^64 integers", "why_tests_cant": "2^64 inputs, ten code paths with boundaries at powers of 2^7.", "anchors": ["proto/encode.go:appendVarint", "proto/size.go:sizeOfVarint"]}
{"id": "C13", "title": "Varints are read back exactly, and malformed ones rejected", "statement": "Reading a varint succeeds exactly when the input starts with a base-128 number of at most ten bytes and below 2^64, returns that number and its length whatever follows; otherwise the result is ErrUnexpectedEOF when the input ends first and the overflow error when the number does not fit.", "quantifier": "all byte strings", "why_tests_cant": "Infinite domain; boundary at byte 10.", "anchors": ["proto/decode.go:decodeVarint"]}
{"id": "C14", "title": "Zig-zag coding is the protobuf bijection", "statement": "sint32/sint64 values n are written as the varint 2n (n>=0) or -2n-1 (n<0), and reading inverts this for every value.", "quantifier": "all 32- and 64-bit signed integers", "why_tests_cant": "2^64 values; sign-extension and shift edge cases at the extremes.", "anchors": ["proto/encode.go:encodeZigZag64", "proto/decode.go:decodeZigZag64", "proto/normal_codec.go:decodeZigzag32"]}
{"id": "C15", "title": "Fixed-width values and floats are bit exact", "statement": "fixed32/fixed64/float/double values are written as 4/8 little-endian bytes and read back bit for bit, including NaN payloads and negative zero.", "quantifier": "all 2^32 and 2^64 bit patterns", "why_tests_cant": "Domain size.", "anchors": ["proto/encode.go:encodeLE32,encodeLE64", "proto/decode.go:decodeLE32,decodeLE64", "proto/normal_codec.go:encodeFloat32"]}
{"id": "C16", "title": "Last value wins for singular scalar fields", "statement": "When an input holds several records for a singular scalar, string, bytes or Option field, the message ends up with the value of the last one.", "quantifier": "all inputs with any number of occurrences, with any other records interleaved", "why_tests_cant": "Unbounded sequences.", "anchors": ["proto/struct.go:structInfo.decode", "proto/normal_codec.go", "proto/option_codec.go"]}
{"id": "C17", "title": "Repeated fields append in input order", "statement": "Each record of a repeated field appends exactly one element after the elements already present, in input order, leaving earlier elements unchanged.", "quantifier": "all inputs, any prior slice length and capacity", "why_tests_cant": "Unbounded sequences and the growth boundary at every power of two.", "anchors": ["proto/slice.go:sliceDecodeFuncOf,growSlice"]}
{"id": "C18", "title": "Nested messages merge into the existing one", "statement": "A record for a nested message field is decoded into the existing nested message when there is one (fields absent from the record keep their value), and into a new zero message otherwise.", "quantifier": "all inputs and prior nested contents", "why_tests_cant": "Unbounded.", "anchors": ["proto/walker.go:structCodec"]}
{"id": "C19", "title": "Explicit presence survives the wire", "statement": "Option fields set to Some(v), including zero values, are always written and read back as Some(v); None writes nothing and reads back as None.", "quantifier": "all scalar types and values", "why_tests_cant": "All values, including the zero of each type.", "anchors": ["proto/option.go", "proto/option_codec.go", "proto/required_codec.go"]}
{"id": "C20", "title": "Implicit presence: exactly the zero values are omitted", "statement": "A plain scalar field contributes no bytes iff it holds its zero value (for floats: iff all bits are zero, so negative zero and NaN are written).", "quantifier": "all scalar types and values", "why_tests_cant": "All values.", "anchors": ["proto/normal_codec.go"]}
{"id": "C21", "title": "nil and empty byte fields stay distinct", "statement": "A nil []byte field is omitted and reads back nil; a non-nil one of any length, also zero, is written and reads back non-nil with the same contents.", "quantifier": "all byte strings", "why_tests_cant": "All values.", "anchors": ["proto/normal_codec.go:sizeOfBytes,encodeBytes,decodeBytes"]}
{"id": "C22", "title": "Maps survive the wire", "statement": "For every map field type protobuf allows and every non-empty map, Unmarshal(Marshal(m)) yields a map with the same keys and values, whatever the iteration order.", "quantifier": "all key/value types, all maps, all iteration orders", "why_tests_cant": "Iteration order is random; codec pairs and values unbounded.", "anchors": ["proto/map.go", "proto/walker.go:structInfo"]}
{"id": "C23", "title": "Empty maps stay empty", "statement": "A message whose map field is nil or empty reads back with a map that has no entries.", "quantifier": "all map types", "why_tests_cant": "Holds or fails per map type, for every surrounding message.", "anchors": ["proto/map.go:mapEncodeFuncOf,mapDecodeFuncOf"]}
{"id": "C24", "title": "Map decoding: one assignment per entry, last wins, defaults for missing parts", "statement": "Every map record performs exactly one assignment; for a repeated key the last entry wins, other keys keep their values, and a missing key or value in an entry is the zero value of its type.", "quantifier": "all inputs, all prior map contents", "why_tests_cant": "Unbounded.", "anchors": ["proto/map.go:mapDecodeFuncOf"]}
{"id": "C25", "title": "Fields without a protobuf tag or unexported are never touched", "statement": "Unexported fields and fields without a protobuf tag contribute nothing to Marshal or Size and are left unchanged by Unmarshal for every input.", "quantifier": "all message types, values, inputs", "why_tests_cant": "All inputs.", "anchors": ["proto/walker.go:structInfo"]}
{"id": "C26", "title": "Fields absent from the input keep their value", "statement": "Unmarshal changes only fields whose number occurs as a record in the input; every other field keeps its previous value, also when Unmarshal fails.", "quantifier": "all inputs, types, prior contents", "why_tests_cant": "Frame property over all inputs.", "anchors": ["proto/struct.go:structInfo.decode"]}
{"id": "C27", "title": "On error, exactly the records before the failing one have been applied", "statement": "If Unmarshal fails at some record, every field other than the one named by the failing record holds what Unmarshal of the input up to that record gives; nothing after it has an effect.", "quantifier": "all failing inputs", "why_tests_cant": "All inputs and failure points.", "anchors": ["proto/struct.go:structInfo.decode"]}
{"id": "C28", "title": "Booleans follow protobuf's varint rule", "statement": "A bool record with any varint payload sets the field to (value != 0) and consumes exactly that varint.", "quantifier": "all varint payloads, also non-minimal ones", "why_tests_cant": "All payload encodings.", "anchors": ["proto/normal_codec.go:decodeBool"]}
{"id": "C29", "title": "Integer width compatibility", "statement": "Reading a varint field into a narrower integer keeps the low bits (int32/uint32/int64/uint64 records are interchangeable modulo truncation), and negative int32 values are written as the sign-extended 64-bit varint so that int32 and int64 agree.", "quantifier": "all 64-bit payloads", "why_tests_cant": "2^64 values.", "anchors": ["proto/normal_codec.go:decodeInt32,decodeUint32,encodeInt32"]}
{"id": "C30", "title": "Argument checking of the API", "statement": "Marshal of a non-pointer returns an error; Size of a non-pointer panics; Unmarshal of a non-empty input into a nil interface, non-pointer, nil pointer or pointer to non-struct returns InvalidUnmarshalError and touches nothing; a nil message pointer marshals to the empty byte string with size 0.", "quantifier": "all dynamic types of the argument", "why_tests_cant": "All argument kinds and inputs.", "anchors": ["proto/proto.go:Size,Marshal,Unmarshal", "proto/error.go:InvalidUnmarshalError"]}
{"id": "C31", "title": "Empty input is the identity", "statement": "Unmarshal of an empty input succeeds and changes nothing; the zero message of a type without map fields marshals to the empty byte string.", "quantifier": "all message types and prior contents", "why_tests_cant": "All types.", "anchors": ["proto/proto.go:Unmarshal", "proto/struct.go:structInfo.encode"]}
{"id": "C32", "title": "Repeated and pointer fixed-width fields follow their declared wire type", "statement": "For every protobuf scalar type and every cardinality, the payload written for a field is the one its declared wire type announces, so that any conforming reader can skip or read it.", "quantifier": "all scalar types x {singular, optional, pointer, repeated, map key, map value} and all values", "why_tests_cant": "The table of combinations is large and the effect depends on the value.", "anchors": ["proto/walker.go:structInfo,codec,required"]}
{"id": "C33", "title": "Packed repeated input is refused, never misread", "statement": "A packed (length-delimited) record for a repeated varint or fixed-width field is rejected with a wire-type error; no elements are appended.", "quantifier": "all inputs, all repeated scalar fields", "why_tests_cant": "All inputs.", "anchors": ["proto/struct.go:structInfo.decode", "proto/slice.go"]}
{"id": "C34", "title": "Appended elements start from zero", "statement": "An element appended to a repeated message field holds exactly the contents of its record, independent of what the slice's spare capacity held before (earlier truncation of the slice, earlier failed Unmarshal).", "quantifier": "all histories of slice use, all records", "why_tests_cant": "Depends on the history of the target.", "anchors": ["proto/slice.go:sliceDecodeFuncOf", "proto/walker.go:structCodec"]}
{"id": "C35", "title": "Memory taken by Unmarshal is linear in the input", "statement": "For every input, the number of elements appended to repeated fields and entries added to maps is at most half the input length, decoded strings and byte fields are no longer than the input, and slice capacity stays within twice the length (or ten).", "quantifier": "all inputs, types", "why_tests_cant": "Amplification bound over all inputs.", "anchors": ["proto/slice.go:growSlice", "proto/struct.go:structInfo.decode", "proto/decode.go:decodeVarlen"]}
{"id": "C36", "title": "Marshal is deterministic up to map order", "statement": "Size does not depend on the map iteration order, and two Marshal calls on the same message return byte strings of equal length made of the same per-field records; without maps they are equal.", "quantifier": "all messages and all pairs of iteration orders", "why_tests_cant": "Go randomises map order at run time.", "anchors": ["proto/map.go:mapSizeFuncOf,mapEncodeFuncOf"]}
{"id": "C37", "title": "Every struct tag the generator writes is understood by the runtime", "statement": "For every field of every .proto message, the struct tag emitted by protoc-gen-golite is accepted by the runtime's tag parser with the same field number, wire type and zig-zag flag.", "quantifier": "all field kinds, numbers and cardinalities", "why_tests_cant": "All descriptors.", "anchors": ["internal/generator/main.go:fieldProtobufTagValue", "proto/struct.go:parseStructTag"]}
{"id": "C38", "title": "Generated messages are encoded according to their .proto type", "statement": "For every field of a generated message, the Go type and struct tag emitted by the generator make the runtime choose the codec for that protobuf type and cardinality.", "quantifier": "all protobuf scalar kinds, messages, enums x cardinalities", "why_tests_cant": "All descriptors and values.", "anchors": ["internal/generator/main.go:fieldGoType,fieldProtobufTagValue", "proto/walker.go:structInfo"]}
{"id": "C39", "title": "Every declared .proto field is transmitted", "statement": "Every field of a .proto message, including members of a oneof, is written by Marshal when set and read by Unmarshal.", "quantifier": "all messages and fields", "why_tests_cant": "All descriptors.", "anchors": ["internal/generator/main.go:genMessageField,genMessageOneofWrapperTypes", "proto/walker.go:structInfo"]}
{"id": "C40", "title": "The encoding of a field does not depend on other fields or on history", "statement": "The bytes for a field depend only on its type, tag and value: not on other fields of the struct, nor on which message types the process has marshalled before.", "quantifier": "all message types, all histories of API calls", "why_tests_cant": "Histories are unbounded; caches are process-global.", "anchors": ["proto/walker.go:codec,pointer,structCodec", "proto/slice.go:sliceCodecOf", "proto/proto.go:cachedStructInfoOf"]}
{"id": "C41", "title": "Concurrent first use of message types is safe", "statement": "If several goroutines marshal or unmarshal types for the first time concurrently, each uses complete type information for the type and for everything reachable from it, in every interleaving, and also after an earlier call panicked on an unsupported type.", "quantifier": "all type graphs, all numbers of goroutines, all interleavings, all panic points", "why_tests_cant": "Schedules are unbounded and the race window is tiny.", "anchors": ["proto/walker.go:structInfo,structCodec", "proto/proto.go:cachedStructInfoOf"]}
{"id": "C42", "title": "Map decoding scratch space never leaks between entries", "statement": "The pooled scratch entry used to decode map entries is zero whenever it is taken, for every history of successful and failed decodes, so that no entry sees parts of an earlier one.", "quantifier": "all histories and interleavings of map entry decodes", "why_tests_cant": "Depends on pool history.", "anchors": ["proto/map.go:mapDecodeFuncOf"]}
{"id": "C43", "title": "Decoded messages do not share memory with the input", "statement": "After Unmarshal, changing the input buffer does not change the message, and Unmarshal does not write to the input buffer; byte slices previously obtained from the message are not modified by a later Unmarshal into it.", "quantifier": "all inputs, all aliasing situations, all later writes", "why_tests_cant": "Aliasing shows only in specific histories.", "anchors": ["proto/normal_codec.go:decodeBytes,decodeString"]}
{"id": "C44", "title": "Option behaves as an optional value", "statement": "Some(v).IsSome, Unwrap and UnwrapOr return v; None returns the zero value or the default; IsNone is the negation of IsSome; the typed constructors are Some.", "quantifier": "all types and values", "why_tests_cant": "Parametric in the type.", "anchors": ["proto/option.go"]}
{"id": "C45", "title": "Re-encoding is stable", "statement": "If Unmarshal accepts an input into a fresh message, marshalling the result and unmarshalling again yields the same message, and a third marshal yields the same bytes.", "quantifier": "all accepted inputs (non-minimal varints, unknown fields, any order)", "why_tests_cant": "All inputs.", "anchors": ["proto/proto.go:Marshal,Unmarshal"]}
{"id": "C46", "title": "Marshal is injective", "statement": "Two different supported messages of the same type never marshal to the same bytes, and no marshalled message's bytes can be decoded to a different message.", "quantifier": "all pairs of messages", "why_tests_cant": "Pairs of values.", "anchors": ["proto/struct.go:structInfo.encode,structInfo.decode"]}
{"id": "C47", "title": "Record order is irrelevant between different fields", "statement": "Exchanging two adjacent records with different field numbers in an accepted input does not change the resulting message.", "quantifier": "all accepted inputs and positions", "why_tests_cant": "All inputs.", "anchors": ["proto/struct.go:structInfo.decode"]}
{"id": "C48", "title": "Errors carry the field path and the root cause", "statement": "Every error from a declared or skipped record is an UnmarshalFieldError whose FieldNumber and WireType are those of the record; nesting gives one layer per level, and errors.Is reaches the root cause, which is one of truncation, varint overflow, unknown wire type or wire type mismatch.", "quantifier": "all inputs and types", "why_tests_cant": "All failing inputs.", "anchors": ["proto/error.go", "proto/struct.go:structInfo.decode"]}
{"id": "C49", "title": "Duplicate field numbers resolve to the last declared field", "statement": "If two struct fields declare the same number, Unmarshal fills the one declared last, while Marshal writes both.", "quantifier": "all message types", "why_tests_cant": "All types.", "anchors": ["proto/walker.go:structInfo"]}
{"id": "C50", "title": "Pointer-to-scalar fields", "statement": "A pointer-to-scalar field that is nil is omitted and stays nil; a non-nil one reads back as a non-nil pointer to the same value.", "quantifier": "all scalar types, tags and values", "why_tests_cant": "All values.", "anchors": ["proto/walker.go:pointer,pointerEncodeFuncOf,pointerDecodeFuncOf,structInfo"]}
{"id": "C51", "title": "Required and implicit codecs agree", "statement": "Whenever a singular scalar field writes anything, it writes the same bytes as the same value would as an element of a repeated field or Option with the same number, and both are read by the same decoder.", "quantifier": "all scalar types, values, tags", "why_tests_cant": "All values.", "anchors": ["proto/normal_codec.go", "proto/required_codec.go", "proto/gen/required/main.go"]}
{"id": "C52", "title": "Marshal never outgrows its buffer", "statement": "The buffer Marshal allocates with capacity Size(v) is never reallocated: at every point of encoding the bytes written so far number at most Size(v).", "quantifier": "all messages", "why_tests_cant": "All values.", "anchors": ["proto/proto.go:Marshal"]}
{"id": "C53", "title": "Type analysis terminates on recursive types and rejects unsupported ones", "statement": "Building the codec of a message type terminates for every (also mutually recursive) set of struct types, and panics exactly when a reachable tagged exported field has an unsupported type or malformed tag.", "quantifier": "all finite sets of struct declarations", "why_tests_cant": "All type graphs.", "anchors": ["proto/walker.go", "proto/struct.go:parseStructTag"]}
{"id": "C54", "title": "Struct tags parse to what they say", "statement": "For every wire type name, field number and option, the tag text 'wt,num,opt' parses to exactly these; unknown wire types, non-numeric numbers and unknown options are refused; trailing attributes are ignored.", "quantifier": "all tag strings", "why_tests_cant": "All strings.", "anchors": ["proto/struct.go:parseStructTag,splitFields", "proto/map.go:formatWireTag"]}
{"id": "C55", "title": "Unmarshal implements the protobuf merge semantics", "statement": "Unmarshal(b, m) succeeds with result m' exactly when b is a sequence of records whose declarative meaning (scalars replaced, Options set, repeated fields appended, nested messages merged recursively, map entries assigned, unknown fields skipped) turns m into m'; the meaning is unique.", "quantifier": "all message types, all inputs of any length and nesting, all initial messages", "why_tests_cant": "The equivalence ranges over all record sequences, nested to any depth, including non-canonical varints and duplicate or unknown fields.", "anchors": ["proto/struct.go:56-149", "proto/walker.go:107-118", "proto/slice.go:58-75", "proto/map.go:117-143"]}
{"id": "C56", "title": "From .proto files to bytes and back through generator, caches and codecs", "statement": "In a process with any number of goroutines that has used any messages before, Marshal of a generated message returns the wire format its .proto file describes, and Unmarshal in the same or another process gives an equal message back.", "quantifier": "all .proto programs, all messages, all numbers of goroutines and interleavings of type analysis, all histories of both processes", "why_tests_cant": "Quantifies over .proto programs, schedules and histories at once; the known violations need particular combinations of fields or of schedules.", "anchors": ["internal/generator/main.go", "proto/proto.go:15-61,108-125", "proto/walker.go", "proto/struct.go"]}
{"id": "C57", "title": "Messages cross versions of their types", "statement": "When a program marshals a message with one set of message types and another program unmarshals it with another version of those types (fields added, removed, reordered, made optional or repeated, integer types widened or narrowed, string and bytes exchanged, in nested messages and maps too), Unmarshal succeeds; each field of the receiver takes what the sender's field with the same number held, converted to its own type and merged into its old value; fields that only the receiver has keep their values and fields that only the sender has are ignored.", "quantifier": "all pairs of compatible sets of message types (also recursive), all messages of the sender, all target messages of the receiver", "why_tests_cant": "The pairs of schemas and the nested messages that cross them are unbounded; tests use one schema on both sides.", "anchors": ["proto/struct.go:56-149", "proto/normal_codec.go", "proto/required_codec.go", "proto/option_codec.go", "proto/slice.go:58-75", "proto/map.go:117-143", "proto/proto.go:15-61"]}
{"id": "C58", "title": "Interoperation with every conforming protobuf implementation", "statement": "For message types given by a .proto file, what generated code reads is what any reader that follows the protobuf specification reads from the same bytes: if such a reader turns message m into m' by the input, Unmarshal turns the Go value that stands for m into the one that stands for m', and (without bools) the other way round. And what generated code writes for the Go value of a message m is read back as m by every such reader.", "quantifier": "all .proto declarations without oneofs whose types the library handles (also recursive), all input bytes, all messages", "why_tests_cant": "Inputs written by other implementations (order of records, repeated records, missing entry parts, non-minimal varints, unknown fields, split messages) are unbounded, and the tests compare with the library itself or a few fixed encodings.", "anchors": ["proto/proto.go:15-61", "proto/struct.go:56-149", "proto/struct.go:19-54", "proto/map.go:67-143", "proto/slice.go:25-75", "proto/normal_codec.go", "proto/required_codec.go", "proto/option_codec.go", "internal/generator/main.go"]}
{"id": "C59", "title": "Every type of a .proto file is generated exactly once", "statement": "The generated Go file declares a struct for a message exactly if the .proto file declares the message, on top level or nested at any depth, and the message is not the entry of a map field; it declares an enum type exactly for the enums of the file and of its messages at any depth; and it declares nothing twice.", "quantifier": "all .proto files, with any nesting of messages and enums", "why_tests_cant": "The repository has no test of nested declarations deeper than one level; nesting is unbounded.", "anchors": ["internal/generator/init.go:75-111", "internal/generator/main.go:57-80", "internal/generator/main.go:199-215"]}
{"id": "C60", "title": "Getters of oneof members", "statement": "The generated getter of a member of a oneof returns the value of the member if this member is set, and the default of the field if another member or none is set, the interface holds a nil pointer, or the receiver is nil.", "quantifier": "all field types, all states of the oneof", "why_tests_cant": "There are no tests of getters; all combinations of field type, default and state would be needed.", "anchors": ["internal/generator/main.go:303-351", "internal/generator/main.go:433-460"]}
{"id": "C61", "title": "Pointer arithmetic stays within the message", "statement": "For a message that lies in memory as the Go compiler lays out its type, Size and Marshal read the fields at their offsets and give the result that belongs to the message's value; Unmarshal of any bytes performs no load or store out of bounds, misaligned or through a pointer of another type, leaves a message in memory that holds the value the bytes stand for, in allocations that are its own, and changes no byte outside of the tagged fields of the message and the allocations reached from it.", "quantifier": "all struct types the walker accepts and their layouts, all contents of memory, all inputs, all capacities chosen by append", "why_tests_cant": "A stray access through unsafe.Pointer usually hits memory that happens to be mapped and unused; tests see no difference unless the neighbouring bytes matter.", "anchors": ["proto/struct.go:31-33", "proto/slice.go", "proto/map.go:60-140", "proto/option.go:7-48", "proto/walker.go:88-118", "proto/walker.go:280-371", "internal/runtime_reflect/slice.go", "internal/runtime_reflect/map.go"]}
{"id": "C62", "title": "Size and Marshal return for every message", "statement": "For every message that its Go type allows, including nil elements of repeated fields, nil pointers as values of maps, empty and nil maps and whatever a failed Unmarshal has left behind, Size returns a number and Marshal returns bytes and a nil error; neither panics.", "quantifier": "all struct types the walker handles, all values of them", "why_tests_cant": "The tests marshal a few dozen well-formed messages; nil elements and half-decoded messages do not occur.", "anchors": ["proto/proto.go:15-35", "proto/struct.go:35-54", "proto/map.go:30-94", "proto/slice.go:31-56", "proto/option.go:7-10"]}
{"id": "C63", "title": "Messages that share memory or form cycles", "statement": "In memory in which every pointer leads to something of its type, however messages, slices and maps share parts and whatever cycles there are, Unmarshal of any bytes into any message makes no invalid access, leaves memory typed and reports an error that depends only on the bytes and the type. Size and Marshal of a message return exactly if no infinite path of messages starts at it, and then with the results for the tree it unfolds to.", "quantifier": "all struct types the walker handles and their layouts, all typed memories, all inputs, all capacities chosen by append", "why_tests_cant": "No test has two pointers to one message or a cycle; the number of ways to share is unbounded.", "anchors": ["proto/struct.go:31-33", "proto/struct.go:35-54", "proto/struct.go:56-157", "proto/walker.go:280-371", "proto/slice.go:58-99", "proto/map.go:30-144"]}
{"id": "C64", "title": "Unmarshal takes linear time", "statement": "Unmarshal takes at most a fixed number of steps per byte of input, whatever the input, its nesting, the outcome and the message type, plus at most a fixed number per element the message already holds. Growing slices does not add to this: also many Unmarshals into one message together take a fixed number of steps per byte.", "quantifier": "all struct types the walker accepts, all inputs, all messages decoded into, all sequences of calls", "why_tests_cant": "Benchmarks measure typical inputs; the worst input is not among them, and no number of inputs gives a bound for all.", "anchors": ["proto/struct.go:56-149", "proto/slice.go:58-99", "proto/map.go:117-143", "proto/normal_codec.go:66-102", "proto/decode.go"]}
{"id": "C65", "title": "Size and Marshal take linear time", "statement": "Size visits every field of every message, every element and every map entry once. Marshal takes at most a fixed number of steps per step of Size, whatever the message.", "quantifier": "all struct types the walker accepts, all messages", "why_tests_cant": "The effect of nesting shows only for deep messages, which the tests do not have.", "anchors": ["proto/struct.go:35-54", "proto/walker.go:95-110", "proto/slice.go:31-56", "proto/map.go:30-94", "proto/proto.go:15-35"]}
{"id": "C66", "title": "Unmarshal limits the depth of nesting", "statement": "There is a fixed limit on how deep messages may be nested in an input; deeper inputs are refused with an error. (Without one, a small hostile input makes the recursion overflow the stack, which ends the process: Go cannot recover from it.)", "quantifier": "all recursive message types, all inputs", "why_tests_cant": "The tests nest a few levels; that no limit exists can be seen only from inputs of every depth.", "anchors": ["proto/struct.go:56-149", "proto/walker.go:107-118", "proto/proto.go:37-60"]}
{"id": "C67", "title": "Concurrent calls do not interfere", "statement": "Any number of goroutines may call Size, Marshal and Unmarshal at the same time, as long as no message is given to Unmarshal that another call is using. Then in every interleaving of their memory accesses there is no data race, no call faults, each returns what it returns when it runs alone, the message decoded into holds the value it holds when Unmarshal runs alone, the scratch structs that the calls exchange through the pools carry nothing from one call to another, and no call waits for another.", "quantifier": "all struct types the walker accepts, all numbers of goroutines and sequences of calls, all messages and inputs, all interleavings of single memory accesses, all behaviours of sync.Pool, all actions of other code on memory the calls do not use", "why_tests_cant": "The race detector sees the interleavings that happen in a run; a struct handed from one goroutine to another through a pool with leftovers in it needs a particular order.", "anchors": ["proto/map.go:117-143", "proto/struct.go:35-149", "proto/slice.go:31-99", "proto/walker.go:95-118", "proto/proto.go:15-60"]}
{"id": "C68", "title": "Integers do not overflow", "statement": "Offsets, counts, sizes and field numbers are computed in Go ints and uints, which wrap around. For every input that fits in memory, Unmarshal returns what it would return with unbounded integers, and every size that fits an int is computed correctly, intermediate sums included; Marshal writes what it would write with unbounded integers.", "quantifier": "all struct types, all inputs, all values, all widths of int from 5 to 64 bits", "why_tests_cant": "The inputs that overflow have gigabytes, or varints chosen to wrap; tests run on 64-bit machines with small inputs.", "anchors": ["proto/struct.go:35-149", "proto/decode.go:63-77", "proto/proto.go:76", "proto/map.go:35-66", "proto/map.go:117-143", "proto/slice.go:33-40", "proto/walker.go:88-118"]}
{"id": "C69", "title": "Generated source text declares what the .proto file says", "statement": "For every .proto file, Go's lexer and parser read the text the generator writes as exactly the declarations it should consist of: an alias and constants for each enum; a struct with the right fields, types and tags for each message; getters for oneofs and their members; interface, wrapper structs and marker methods for each oneof. No comment in the .proto file, even one with braces, quotes, line breaks or code in it, changes what is read. The struct that Go reads is the one the library was analysed with (C38, C56, C58).", "quantifier": "all files with any enums and messages whose names are Go identifiers, all comments without NUL and byte order marks", "why_tests_cant": "Comments are arbitrary text and the combinations of kinds, labels, oneofs and options are unbounded; the repository compares no generated text.", "anchors": ["internal/generator/main.go:53-86", "internal/generator/main.go:168-351", "internal/generator/main.go:353-557"]}
{"id": "C70", "title": "Generated structs cannot be compared", "statement": "No struct type generated for a message is comparable with ==, so generated messages are never used as map keys or compared by accident; the artificial field _ [0]func() is added exactly if the struct would be comparable without it.", "quantifier": "all messages", "why_tests_cant": "All combinations of field kinds, labels and oneofs.", "anchors": ["internal/generator/main.go:226-235", "internal/generator/main.go:357-400"]}
{"id": "C71", "title": "Public imports make the imported symbols visible, and nothing else", "statement": "The generated file forwards every enum, message, oneof wrapper and enum value of each publicly imported file of another Go package under its own name (type X = p.X, const X = p.X), adds nothing else to the file's own declarations, forwards nothing transitively, and is readable for Go; imports that are not public or within the package leave the text as it is.", "quantifier": "all files with trees of imports of any depth, all names and comments as in C69", "why_tests_cant": "The generator reads its own output back; that this always succeeds depends on all names, comments and nested imports.", "anchors": ["internal/generator/main.go:53-75", "internal/generator/main.go:88-166"]}
{"id": "C72", "title": "Getters in the generated text, run as Go", "statement": "In a generated file that Go accepts, calling the method GetF of a message on any pointer (nil, with the oneof unset, set to F, to another member, or to a nil wrapper) runs without panic and returns a value of the type of the field: that of member F if F is set, else its default. The getter of the oneof returns the interface value.", "quantifier": "all files, messages, oneofs and members of any type, all receivers, all scopes in which the names mean what the .proto file says", "why_tests_cant": "Depends on all combinations of field types, enum packages and names, and on name resolution in the generated code.", "anchors": ["internal/generator/main.go:303-351", "internal/generator/main.go:433-460", "internal/generator/main.go:461-495"]}
{"id": "C73", "title": "Error texts say where and why", "statement": "The text of an error returned by Unmarshal names, from the outside in, the field numbers and wire types on the way to the fault, as they are in the input, and the cause; no text can be read in two ways, so equal texts mean equal errors, whatever the types and inputs. For an unusable argument the text says what is wrong with the argument, for all arguments including the nil interface, and is never the text of an input error.", "quantifier": "all inputs, types, programs and arguments; 32 and 64-bit integers", "why_tests_cant": "Ambiguity is a statement about all pairs of errors of any nesting depth and all numbers.", "anchors": ["proto/error.go:11-51", "proto/proto.go:25-61", "proto/struct.go:92-100", "proto/decode.go:16"]}
{"id": "C74", "title": "Unmarshal again", "statement": "Unmarshal of an accepted input into the message it gave is accepted and changes nothing. Unmarshal of the front part of an accepted input, whether it reports truncation or not, leaves the message such that Unmarshal of the whole input then gives what it would have given at first. (Retrying needs no Reset.)", "quantifier": "all types, inputs, ways to cut them and messages to start from; maps, nested messages to any depth, bool fields with long varints included", "why_tests_cant": "The second run starts from states that only the first run produces, and the messages nested in them are merged record by record.", "anchors": ["proto/proto.go:37-61", "proto/struct.go:56-140", "proto/map.go:100-160", "proto/walker.go"]}
{"id": "C75", "title": "The source text does what the model says", "statement": "Read and run as Go programs, by the rules of the Go specification, the files size.go, encode.go, decode.go, normal_codec.go, required_codec.go and option_codec.go (and the methods of option.go they call) do what the model of them says: each of their functions returns the results of its model function, changes memory only where and how the model does, and panics only where the model does. The codec variables name the functions they should.", "quantifier": "all arguments, all memories, all pointers into them other than into maps (for decode functions), all scalar types and their required and optional variants; inputs of decode functions below 2^60 bytes", "why_tests_cant": "All other theorems are about a model written by hand; a test compares model and code on samples only. Here the text itself is the subject, for all arguments.", "anchors": ["proto/size.go", "proto/encode.go", "proto/decode.go", "proto/normal_codec.go", "proto/required_codec.go", "proto/option_codec.go", "proto/option.go:23-48"]}
{"id": "C76", "title": "Whole messages, from the source text", "statement": "The methods size, encode and decode of a message type's structInfo, run as Go programs from the text of the library together with everything they call (the scalar codecs, the function literals for pointers, nested messages, repeated fields and maps, growSlice, the skipping of unknown fields, fieldError), return what Size, Marshal and Unmarshal of the model return, and leave in memory what the model says. Hence encode followed by decode gives the message back.", "quantifier": "all message types, all values, all byte strings below 2^57 bytes, all memories, whether or not a pool has something at each call, from some bound on nested calls on", "why_tests_cant": "It ties the hand-written model of recursive codecs to the text of the program for all messages and inputs; a comparison by tests covers samples only.", "anchors": ["proto/struct.go", "proto/slice.go", "proto/map.go:35-93,117-143", "proto/walker.go:88-118,280-282,343-370", "proto/error.go:23-29"]}
{"id": "C77", "title": "Size, Marshal and Unmarshal, from the source text", "statement": "The exported functions Size, Marshal and Unmarshal, run as Go programs from their text together with what they call, return for every argument what the model says: messages, nil pointers to messages, pointers to something else, values that are not pointers, and the nil interface; including the panics of misuse. Misuse writes nothing; Unmarshal leaves in the message what the model says, also when it returns an error. Hence, for any program of struct declarations accepted by the library, Marshal's text writes a protobuf message of the schema and Unmarshal's text reads it back.", "quantifier": "all arguments, all message types, all byte strings below 2^57 bytes including nil, all memories, from some bound on nested calls on", "why_tests_cant": "Ties the statements about the API to the text of its functions for all arguments and inputs.", "anchors": ["proto/proto.go:15-70", "proto/struct.go", "proto/error.go"]}
{"id": "C78", "title": "The generators of required_codec.go and option_codec.go", "statement": "gen/required makes of a function one that does what the function does when the tests of its top-level if statements are taken to be true: same results and same memory, for all arguments and whatever the functions it calls do, provided the names declared in these statements are not in use; so where the tests hold, it does the same as the function. required_codec.go in the repository is what gen/required makes of normal_codec.go, and option_codec.go is what gen/option makes of its template; for any list of types gen/option writes the same group of declarations for each.", "quantifier": "all functions (in the part of Go that is modelled), all arguments, all memories, all behaviours of called functions; all lists of types", "why_tests_cant": "A statement about all functions a program transformation can be applied to, and about all their runs.", "anchors": ["proto/gen/required/main.go", "proto/gen/option/main.go", "proto/normal_codec.go", "proto/required_codec.go", "proto/option_codec.go"]}
{"id": "C79", "title": "Type analysis, from the source text", "statement": "cachedStructInfoOf with everything it calls (structInfo, codec, required, pointer, structCodec, sliceCodecOf, mapCodec, parseStructTag and the functions that return the functions of codecs), run as a Go program from the text of the library, performs the same allocations and accesses to the global caches as the model, in the same order and with the same outcome, whatever other goroutines do to the caches meanwhile; the only difference is a codec that is allocated before a panic. Without messages by value and unsupported options there is no difference, so processes whose goroutines run the text get into exactly the states of the model, and what is proved of concurrent analysis, faults included, holds of the text. Analysis run from the text ends.", "quantifier": "all struct declarations (messages by pointer or value, slices, maps, options, recursive types, malformed tags), all contents of the caches and interleavings, from some bound on loops and nested calls on", "why_tests_cant": "The number of interleavings and of declarations is unbounded; it ties the transition system used for concurrency to the text of the program.", "anchors": ["proto/walker.go:29-371", "proto/slice.go:13-75", "proto/map.go:20-144", "proto/struct.go:159-227", "proto/proto.go:111-125"]}
{"id": "C80", "title": "The whole library as text, with shared caches", "statement": "In a process whose goroutines run the text of type analysis on the global caches, a goroutine that has got the type info of a message type and then runs the text of Size, Marshal and Unmarshal (with all functions they call and the codecs that analysis has left in memory) gets what the declarations say: Marshal returns the wire format the .proto file describes, Size its length, and Unmarshal, in the same or another process, reads it into a new message equal to the original, and returns an error or nil on every input. While an analysis of a message type that contains itself is going on this is false.", "quantifier": "all programs and .proto files with supported types, all message values, all inputs, all numbers and interleavings of goroutines, all sufficiently large bounds of the interpreters", "why_tests_cant": "It composes the text of analysis, of codecs and of the exported functions for all declarations, values and schedules; tests run a few message types in a few schedules.", "anchors": ["proto/proto.go:15-125", "proto/walker.go:29-371", "proto/struct.go", "proto/slice.go", "proto/map.go"]}
{"id": "C81", "title": "Objects of type analysis are written once", "statement": "Codecs and type infos are allocated empty and filled in later, while other goroutines may find them in the caches. Whatever schedule, each is filled in at most once, by one goroutine, and never changes afterwards; what codecCache and sliceMap hold for a key never changes. So for message types that do not contain themselves, or while no analysis is going on, a call of Size, Marshal or Unmarshal comes to objects only that have been filled in and finds the same there whichever operations of other goroutines come between its reads. For message types that contain themselves this is false: the call reads a type info that another goroutine is about to write, which is a data race. What structInfoCache holds for a type can change.", "quantifier": "all programs, all numbers of goroutines, all interleavings, all later states", "why_tests_cant": "It is about every pair of a write and a read in every schedule; the race detector sees the schedules that happened.", "anchors": ["proto/walker.go:77-121", "proto/walker.go:134-276", "proto/walker.go:284-297", "proto/slice.go:13-29", "proto/map.go:20-28", "proto/proto.go:108-125"]}
