# Formal model of RomiChan/protobuf in Lean 4

Source under study: `/repo` (Go, package `proto`, plus the code generator `internal/generator`).
Model and proofs: `/verif/lean/Verif/`. Properties: `properties.jsonl`. Claims: `MANIFEST.json`.

## Layout

`Model/` is the code, definition by definition with file and lines. `Spec/` holds what the theorems are stated with:
grammars, relations and conditions that do not mention encode or decode functions of the model. `Proofs/` are helper
lemmas. `Props/` holds the property theorems, negations and sample cases only; a theorem `Cnn_...` belongs to property
Cnn, `_partial` marks a restricted form, `Cnn_false_...` a proof that the unrestricted form does not hold.

| Part | Model | Go code | Properties in |
|---|---|---|---|
| wire primitives | `Model/Wire` | `encode.go`, `decode.go`, `size.go` | `Props/Wire` |
| Go memory (values) | `Model/Value` | struct memory reached through `unsafe.Pointer` | `Props/Safety`, `Props/Memory` |
| scalar codecs | `Model/Scalar` | `normal_codec.go`, `required_codec.go`, `option_codec.go` | `Props/Fields` |
| composite codecs, struct loop | `Model/Codec` | `struct.go`, `slice.go`, `map.go`, closures of `walker.go` | `Props/Decode`, `Merge`, `RoundTrip`, `Errors`, `Stable`, `Evolve` |
| struct tags | `Model/Tag` | `struct.go: parseStructTag`, `map.go: formatWireTag` | `Props/Tags` |
| tag lookup | `Model/RawTag` | `reflect.StructTag.Lookup`, `strconv.Unquote` as far as used | `Props/Generator` |
| type analysis | `Model/Walker` (without caches) | `walker.go`, `slice.go: sliceCodecOf`, `proto.go` | `Props/Program` |
| type analysis | `Model/Cache` (with caches, any number of goroutines) | the same, plus `sync.Map` and the maps of the walker | `Props/Cache` |
| API | `Model/Api` | `proto.go`, `error.go`, `option.go` | `Props/RoundTrip`, `Errors`, `Fields` |
| generator | `Model/Generator` | `internal/generator/main.go` | `Props/Generator` |
| generator, whole files and oneofs | `Model/GenFile` | `init.go: newFileInfo`, `main.go`: getters, wrapper types | `Props/GenFile` |
| map iteration order | `Model/Order` | `for range` over maps in `map.go` | `Props/Order` |
| scratch pool | `Model/Pool` | `map.go: structPool` with any number of concurrent calls | `Props/Pool` |
| sharing of byte buffers | `Model/Heap` | `decodeBytes`, `decodeVarlen` on slices as (array, offset, len, cap) | `Props/Heap` |
| raw memory | `Model/Flat` | `structField.pointer`, `internal/runtime_reflect`, the accesses of all codecs through `unsafe.Pointer` | `Props/Flat`, `Graph` |
| concurrent calls on raw memory | `Model/Conc` | the same, access by access, with `structPool` and any number of goroutines | `Props/Conc` |
| time | `Model/Cost` | all codecs, with a step counter | `Props/Cost` |
| generated source text | `Model/GenText` | `main.go`: all that is written | `Props/GenText` |
| public imports | `Model/GenImport` | `main.go: genImport`, for trees of imports; `go/parser` is `Spec.parseFile` | `Props/GenImport` |
| getters as Go programs | `Spec/GoRun` (parser and interpreter for method bodies), on the text of `Model/GenText` | `main.go: genMessageGetterMethods, fieldDefaultValue` | `Props/GoRun` |
| error texts | `Model/ErrText` | `error.go`, `fmt.Errorf` in `proto.go`, `struct.go` | `Props/ErrText` |
| reading again | (of `Model/Api`) | `proto.go` | `Props/Again` |
| source text of the library | `Model/Source` (the text), `Model/SourceTree` (its syntax trees) | `size.go`, `encode.go`, `decode.go`, `*_codec.go`, `option.go: IsSome, unsafePointer` | `Props/Source` |
| source text of whole messages | the same | `struct.go`, function literals of `walker.go`, `slice.go`, `map.go`, `growSlice`, `fieldError` | `Props/SourceMsg` |
| source text of the exported functions | the same | `proto.go: Size, Marshal, Unmarshal, inspect` | `Props/SourceApi` |
| generators of codec files | `Model/GenCodec`, `Model/GenCodecText` | `gen/required/main.go`, `gen/option/main.go` | `Props/GenCodec` |
| source text of type analysis | `Model/WalkerText` (the text), `Model/WalkerTree` (its syntax trees) | `walker.go:29-371`, `slice.go`, `map.go: mapCodec, map*FuncOf`, `struct.go: parseStructTag, splitFields`, `proto.go: cachedStructInfoOf` | `Props/SourceWalk` |
| source text of the library in a process | the two above together, `Spec/SharedRun` | the same | `Props/SourceShared` |
| objects of type analysis as shared memory | `Spec/CacheWrite` | proto/walker.go, slice.go, map.go, proto.go:108-125 | `Props/CacheWrite` |
| machine integers | `Model/Width` | the additions and conversions of all decode, size and encode functions, with `w`-bit `int`s | `Props/Width` |
| all together | — | .proto file → generator → analysis with caches → codecs | `Props/EndToEnd`, `Abstract`, `Reads` |

## Modelling decisions

* Bytes are `BitVec 8`, machine integers `BitVec 32/64`; floats are their bit patterns
  (`math.Float32bits` is the identity of the model). `int` (sizes, offsets) is `Nat`. `Model/Width`
  has Unmarshal, Size and Marshal with `int`s of `w` bits that wrap around; C68 shows that 64 bits are as good as `Nat`.
* Memory is a tree `Val`. A codec that reads memory of a different shape than it expects yields
  `Fault.confused` (undefined behaviour in Go through `unsafe.Pointer`), except where the read is well defined on a
  little-endian 64-bit machine (the low half of an 8-byte value, the string header inside a slice header).
  An index out of range yields `Fault.oob` (a Go panic). Both are *outcomes of the model*, and their absence is a theorem.
* `(n, err)` results: on error the byte count is dropped, since no caller uses it.
* Recursion through message types uses a depth argument with outcome `Fault.depth`; the API picks a depth from
  the input and its sufficiency is a theorem (C04; this is also the termination statement).
* A slice is its elements plus the slots between len and cap, because `sliceDecodeFuncOf` decodes into them without clearing.
* A Go map is an association list in one iteration order; theorems quantify over the list. `Model/Order` lets the order
  differ between the two passes over a map (size and encode), for every map separately.
* `Model/Cache` is a transition system: every read or write of a shared map is one step, goroutines are interleaved
  arbitrarily, and a goroutine may panic out of an analysis. `sync.Map` operations are atomic. The Go types of a process are
  a fixed function from type ids to declarations.
* `Model/Pool` is a transition system: `sync.Pool.Get` may return nil or any struct put earlier, and the pool may drop
  structs at any time.
* `Model/Heap` has one memory of byte arrays shared by input and message; everything but byte slices stays a value.
  `Proofs/HeapSim` relates it to the value model.

* `Model/Flat` repeats the codecs on raw memory: allocations of bytes, pointers as (allocation, offset), every access with address,
  width and alignment. Out of bounds and misaligned accesses give `Fault.oob`, reading a non-pointer as a pointer
  `Fault.confused`. Pointers and `int`s in memory are symbolic (byte `k` of pointer `p`), runtime maps are objects of their own
  kind, and nothing is freed. `Spec/Flat` says when memory holds a value (`Holds`) and how the compiler lays out structs (`goLay`);
  the theorems carry the results about values over to memory. `Spec/Graph` says when memory as a whole is typed, with any sharing,
  interior pointers and cycles (`Graph`), and what tree a message in it unfolds to (`Unfolds`).

* `Model/Source` holds files of the library as text. `Spec/GoSyntax` reads them (a lexer with inserted semicolons and a parser for the
  part of Go that occurs), `Spec/GoExec` runs functions: values carry their Go types, constants are untyped until used, integer
  operations wrap, shifts, conversions, slices and indexing follow the specification, and what does not compile or is outside of this
  part gives `Fault.confused`. Pointers are paths into one `Val`, accessed as in `Model/Value`. Byte slices are values; writing
  through an alias is the subject of `Model/Heap`. `int` has 64 bits.
  Functions called through values (methods of `structInfo`, functions of a `codec`) are looked up in `codecs` (`Spec/Source`), which
  runs the function, or the function literal of walker.go, slice.go, map.go for the codec, again from its text. The variables a literal
  captures are given there. `reflect.New`, `MakeSlice`, `CopySlice`, `MapIter` and the other functions of `internal/runtime_reflect` are
  primitives of the interpreter on `Val`;
  the order of iteration is that of the list. `MakeMap`, `MapAssign` and `Assign` are described by `runtimeCall` (`Spec/Source`);
  values in maps are written through `Assign` only. A `sync.Pool` gives something or nothing at each call, as the parameter `hit` of the
  theorems says; what it gives is a zero struct, and to put something else back is an error. An interface value is
  its dynamic type (`RType`: a struct type, a pointer to a type, or another kind) with its data word, so that `pointer(v)`,
  `reflect.TypeOf`, `Kind` and `Elem` are primitives on it. `cachedStructInfoOf` is a primitive too (`apiCalls`): it panics unless the
  type is a struct, and gives the `structInfo` of that type. The functions that build codecs are run by another interpreter (`Spec/GoWalk`, C79).
  In C80 `cachedStructInfoOf` gives the type info at the address its own text has returned to this goroutine (`Spec/SharedRun`). The shared
  state does not change during one call of `Size`, `Marshal` or `Unmarshal` there; the theorems hold for every state of the process. C81 shows that what such
  a call can read does not change while other goroutines go on and that
  codecs are the same when each object is read at a time of its own (`ReadsAs`); the interpreter itself is run on one state.

* `Model/Cost` repeats size, encode and decode with step counters; erasing the counters gives the model back (theorems
  `C64_counts`, `C65_*_counts`). A step is an iteration of the decode loop, a byte looked at by `decodeVarint`, a copied byte, a slot zeroed or copied by `growSlice`;
  for size and encode a visited field, element or entry. Everything else done between two counted steps is bounded by a constant.

* `Model/Conc` is a transition system over the memory of `Model/Flat`: a call is a program of single accesses (`Act`), the
  accesses of all goroutines interleave arbitrarily, and between them other code may write to memory that no call uses, make
  calls, or let the garbage collector empty pools. Run alone, the programs do what `Model/Flat` does (`Proofs/ConcSeq`), except that
  map entries are decoded into structs from the pools, where `Model/Flat` takes a new one every time; that this makes no
  difference is part of C67. Each task carries lists of the allocations it may use (`own`, `rd`); no program looks at them, they
  only state what surrounding code must leave alone. Pools are told apart by struct size only, which allows more executions than
  separate pools do. Accesses are sequentially consistent; C67 shows that there are no races, and for race-free programs
  the Go memory model promises just that. Type infos are complete when the calls begin.

### Not modelled

* The Go memory model for the analysis of types: in `Model/Cache` goroutines interleave at the granularity of map operations, and
  races are visible only as interleavings. For calls on analysed types see `Model/Conc`.
* Sharing and cycles exist in `Model/Flat` and `Model/Conc` only (C63, C67); in all other models messages are trees.
* Running out of memory, stack depth of the Go runtime (C04 bounds the recursion depth by the input length).
* `reflect` beyond what `walker.go` looks at; the texts of panics and of errors in struct tags. (Errors of Unmarshal are constructors
  with field number and cause; their texts are in `Model/ErrText`.)
* The generator's naming, import declarations, extensions and weak fields. `protogen` is represented by its result
  (files with messages, fields, Go names and comments); what it does with the text the generator wrote (import
  declarations, layout) is not modelled.
* Big-endian machines. 32-bit machines, except in `Model/Width` (C68).
* The time of the Go allocator, garbage collector and map implementation.

## Findings: where the code does not do what it should

Every item is proved as a theorem about the model with a concrete witness.

| What | Where | Theorem |
|---|---|---|
| Size of map values computed with the key's function: wrong length prefix, unreadable output | map.go:80 | `C02_false_for_maps`, `C22_false_for_mixed_maps`, `C22_false_int_to_string` |
| … and a read beyond the value's memory | map.go:80 | `C61_false_for_mixed_maps`, `C62_false_for_mixed_maps` |
| Size and Marshal of a message that contains itself never return (in Go: stack overflow, which cannot be recovered); Unmarshal into it works | struct.go:35-54, walker.go | `C63_never_returns`, `C63_cycle` |
| Empty and nil maps are written as one empty record and come back as `{zero: zero}` | map.go | `C23_empty_map_grows`, `C45_false_for_empty_maps`, `C58_false_empty_map` |
| Zig-zag and fixed-width map types are written one way and read another | map.go: formatWireTag | `C22_false_for_zigzag_maps`, `C32_false_map_fixed32` |
| Repeated fixed32/fixed64 and all sfixed: varint payload under a fixed wire type | walker.go | `C32_false_*`, `C38_false_sfixed`, `C38_false_repeated_fixed` |
| `*uint32`, `*float32` with a fixed tag and `*[]byte`: memory of the wrong type is overwritten | walker.go | `C03_false_for_fixed_pointer`, `C03_false_for_bytes_pointer` |
| Bool payloads longer than one byte put the decoder out of step | normal_codec.go: decodeBool | `C28_multi_byte_bool_desyncs`, `C05_false_for_bool`, `C17_false_for_bool`, `C26_false_for_bool`, `C57_false_int_to_bool` |
| Pointers to zero scalars are lost | walker.go | `C50_pointer_to_zero_lost`, `C45_false_for_zero_pointers`, `C46_false_for_noncanonical` |
| nil elements of repeated fields are dropped | slice.go | `C01_false_nil_element` |
| Appended elements are decoded into stale slots of the slice | slice.go:58-75 | `C34_false_with_stale_spare` |
| Byte slices taken from a message earlier are overwritten; a slice overlapping the input corrupts it | decodeBytes | `C43_false_earlier_slices`, `C43_false_overlap` |
| Marshal of a nil interface panics | proto.go | `C30_nil_interface_panics` |
| … and so does Unmarshal, for which a text is prepared that is never used | proto.go:44, error.go:38-40 | `C73_false_nil_interface` |
| With 32-bit integers error texts show negative field numbers | error.go:25 | `C73_false_int32` |
| Unmarshal into the result of Unmarshal doubles repeated fields, also after a failed attempt on part of the input | proto.go:37-61, slice.go | `C74_false_repeated`, `C74_false_retry` |
| Required fields and groups: the generated tag makes the runtime panic | generator, struct.go | `C37_false_required_and_group` |
| Getters ignore defaults given in the .proto file | generator: fieldDefaultValue | `C60_false_given_default` |
| The getter of a oneof member panics if the oneof holds a nil pointer to the wrapper struct of this member | main.go:326-332 | `C60_false_nil_wrapper` |
| Members of oneofs are neither written nor read | generator | `C39_false_oneof_not_written`, `C39_false_oneof_not_read` |
| Codecs are cached by Go type only: `[]int32` as int32 and as sint32 in one message tree are mixed up, and the result depends on which types were used before | walker.go, slice.go | `C40_false_field`, `C40_false_history`, `C56_false_mixing` |
| Mutually recursive types: a concurrent goroutine uses an unfinished type info and silently loses nested contents; the same for ever after a panic | walker.go, proto.go | `C41_false_concurrent`, `C41_false_after_panic` |
| `[][]int32` is refused or accepted depending on what was analysed before | walker.go | `C53_false_nested_slices` |
| Marshal is quadratic in the nesting depth: every level calls Size on all levels below | walker.go, map.go | `C65_false_linear`, `C65_false_after_unmarshal` |
| With 32-bit `int`s, an input just above 1 GiB makes Unmarshal panic: the check of the length of an unknown field leaves out the offset | struct.go:75-92 | `C68_false_int32` |
| With 32-bit `uint`s, field numbers are taken modulo 2^32: a record with number 2^32+1 is read as field 1 | decode.go:65, proto.go:76 | `C68_false_field_number` |
| With 32-bit `int`s, Marshal of a message of 2 GiB or more (a string of 1 MiB repeated 2048 times, memory shared) panics: negative capacity | proto.go:32 | `C68_false_marshal_int32` |
| A NUL in a comment of the .proto file (or a line break in its path) makes the generated text unreadable for Go | main.go:82-84, protogen | `C69_false_nul`, `C69_false_path` |
| A message named like the file descriptor (`File_a_proto` in a.proto) is not forwarded by public imports, although no descriptor is generated | main.go:128-131 | `C71_false_descriptor` |
| Public imports of two files that both declare `M` in different packages: the generated file declares `M` twice | main.go:139 | `C71_false_duplicates` |
| Chains of public imports in pairs take exponential time: 2·n files, 2^(n+1) − 1 calls of GenerateFile | main.go:108 | `C71_false_exponential` |
| The default `x.E(n)` in the getter of an enum member refers to the receiver if the package of the enum is imported as `x`: the file does not compile | main.go:326, 447 | `C72_false_package_x` |
| A comment `//go:generate x` in the .proto file becomes a directive in the Go file | main.go, protogen `Comments.String` | `C69_false_directive` |
| Nothing limits the depth of the recursion: a few megabytes of input nest millions of levels deep (in Go: stack overflow, which ends the process) | struct.go, walker.go:107-118 | `C66_false_no_limit` |
| Two runs of Marshal on one message give different bytes | map.go | `C36_false_equal_bytes` |

What is true instead is proved beside each of them: either the exact behaviour or the property under the weakest condition
found.

## Central specifications

| File | Says |
|---|---|
| `Spec/Wire` | LEB128, base-256 and zig-zag on numbers |
| `Spec/Records` | an input is a sequence of records (number, wire type, payload) |
| `Spec/Typing` | `Fits`: values in memory of a given layout |
| `Spec/Encode` | `EncodesMsg`: the protobuf encoding of a value, for given codecs |
| `Spec/GoSource` | how Go reads source text: tokens, inserted semicolons, types, declarations |
| `Spec/GenSource` | which declarations a generated file should have, and what a struct type in source means to the library |
| `Spec/GoRun` | how Go runs the bodies of generated methods: statements, expressions, name resolution, assignability, type assertions, nil pointers |
| `Spec/ErrText` | what the text of an error says: path of field numbers and wire types, cause; what is wrong with an argument |
| `Spec/Again` | messages without repeated fields, here and within |
| `Spec/GoSyntax`, `Spec/GoExec` | how Go reads and runs functions of the library: tokens, statements, expressions, constants, integer types, conversions, pointers, blocks, loops, calls |
| `Spec/GenCodec` | functions without the tests of their top-level `if` statements; when statements can be moved out of blocks |
| `Spec/GoWide`, `Spec/GoWalk`, `Spec/WalkProcess` | how Go reads and runs the functions of type analysis, as computations on caches shared with other goroutines; processes whose goroutines run the text |
| `Spec/GoTemplate` | how text/template fills in a template |
| `Spec/Source` | the program in the source files, and how results of Go functions correspond to results of model functions |
| `Spec/Protobuf`, `Spec/Generator` | the same from Go declarations (`WireMsg`) and from .proto definitions (`ProtoMsg`), without codecs or tags |
| `Spec/Merge` | `MergeRecs`: what a sequence of records does to a message |
| `Spec/Reading` | the same with the library's treatment of long bools: exactly what is accepted |
| `Spec/Back` | `Back`: what comes back from a round trip; `Canon`: messages that come back equal |
| `Spec/Errors` | which inputs are refused, with which error |
| `Spec/Memory` | amounts of memory of a value |
| `Spec/Cost` | what there is to visit in a message, nesting, what its slices owe |
| `Spec/Order` | reorderings of maps |
| `Spec/Cache` | what a process with caches should do, and when (`Consistent`, acyclic, settled) |
| `Spec/Evolve`, `Spec/ProtoEvolve` | what a receiver with other message types should get |
| `Spec/Flat` | which memory holds which value; struct layout |
| `Spec/Graph` | typed memory with sharing and cycles; paths between messages; what a message unfolds to |
| `Spec/Conc` | which calls a program may make |
| `Spec/Abstract` | messages as field number → value, without Go types; what a conforming reader makes of an input (`ParseMsg`); which Go value stands for which message (`ReprMsg`) |

## How the properties are proved

| Id | How |
|---|---|
| C01 | relation `Back` + induction over it; corollary for canonical values; negations for the shapes where the code loses data |
| C02 | induction over well-typed values; negation for maps whose key and value codecs differ |
| C03 | invariant: decode never faults and preserves well-typedness, induction on depth, codec and loop |
| C04 | depth/fuel sufficiency and independence lemmas |
| C05 | loop characterisation by a record grammar in `Spec` |
| C06, C07, C08, C26, C27, C47 | suffix form of the decode loop, then induction over the input |
| C09, C10, C33, C48 | one-step lemmas lifted to every record boundary |
| C11 | inductive relation written from the protobuf documentation; Marshal output satisfies it |
| C12, C13, C14, C15 | arithmetic on `Nat`/`Int` against LEB128 / zig-zag / base-256 specs |
| C16, C17, C18, C24 | fold over records |
| C19, C20, C21, C50, C51 | case analysis per codec + round trip |
| C22, C23 | round trip for map codecs; negations with witnesses |
| C25 | frame lemma over all indices not in the field table |
| C28 | one-byte payloads: proved; longer ones: negation for all |
| C29 | bit-vector truncation lemmas through the codecs |
| C30, C31 | case analysis of the API functions; negation for the nil interface |
| C32, C38 | table over kinds and cardinalities, lifted to values; negations for sfixed, repeated fixed |
| C34, C35 | slice model with spare slots; potential argument for memory |
| C36 | two-pass model of map iteration, permutation invariance |
| C37, C54 | string-level model of the tag parser and of tag lookup |
| C39 | negation for oneof members; positive part for all other fields |
| C40 | refinement of the model with caches to the cache-free walker under a no-conflict condition; negations otherwise |
| C41 | invariant of the transition system over goroutines; negations by concrete runs |
| C42 | invariant of the pool system over all interleavings |
| C43 | heap model, simulation of the value model |
| C44 | direct |
| C45, C46 | `Back` is idempotent on canonical values |
| C49, C52, C53 | lemmas about the field table, prefix sizes, walker; measure for the termination of analysis |
| C55 | equivalence of the loop with `MergeRecs` (`ReadingRecs` for all types) |
| C56 | composition of C38, C40/C41 and C01 |
| C57 | items of the sender are taken by the receiver, induction over the size of the encoding |
| C59 | the walk as a preorder list, permutation |
| C60 | case analysis |
| C61 | simulation of the value model by the memory model with a separation invariant (allocations of a message pairwise distinct), frame lemmas |
| C62 | induction over depth and codecs; negation for maps |
| C63 | invariant "memory is typed" of every store and allocation; error of the decoder independent of the target; accessibility of messages for the reading side |
| C64 | counting copy of the decoder; amortised analysis with potential `Val.debt` |
| C65 | counting copies of size and encode; negation by the family `chain n` |
| C66 | induction over the recursion; negation by the family `chain n` |
| C67 | invariant: each call is simulated by a run of it alone on the memory given to it, up to a renaming of allocations and with new scratch structs; what different calls own is disjoint |
| C68 | simulation of the wrapping functions by the unbounded ones; where they part, the next slice expression has a negative index |
| C69 | each piece of text is read as the tokens of its declaration, whatever token came before; tokens written from declarations are parsed back to them; the types found mean what `genMessage` says |
| C71 | induction over the tree of imports: the text of an imported file is read as its declarations (C69), forwards of forwards are empty, the other forwards are read as aliases and constants |
| C72 | the bodies of the getters are parsed for all names and defaults, lookups are unique in files without duplicates, then the interpreter is run case by case |
| C73 | the texts are split at the first blank or colon, which numbers do not contain; the numbers are bounded because a tag has 64 bits (C48) |
| C74 | by strong induction on the total payload length: the values of a field after the records are those after its own payloads, which only replace (scalars), assign keys (maps: the same assignments again change nothing) or are the records of shorter nested messages (induction); a cut record has no effect |
| C75 | the kernel parses the texts; the functions of the resulting trees are run symbolically (rewriting with the interpreter), loops by induction |
| C76 | the same for struct.go and the function literals, with calls of codecs as hypotheses; then induction over codecs inside an induction over the depth of messages, for any sufficient bound on nested calls; slices grow by at most one element per byte read, so that lengths stay within int; the round trip from C01 |
| C77 | symbolic runs of the three functions for each kind of argument, with C76 for the methods they call; for programs, C54 gives the hypotheses |
| C78 | each statement adds names in front of those in use, and the number of variables of a block matters only for declarations; so statements can be moved out of blocks. The files: evaluation by the kernel; any list of types: induction |
| C79 | each function is run symbolically on unknown types and caches (tactics of `Proofs/Symbolic`, results checked by the kernel), the loops by induction; `structInfo` by induction on the nesting of struct types. The result is the program of `Model/Cache`, so that C40, C41 and C53 apply |
| C80 | the type infos in the shared state are those of C54 up to addresses (simulation of C41), so the hypotheses of C76 hold of them; `Size`, `Marshal` and `Unmarshal` are run again with them; the .proto level is C38 with C56's conditions |
| C81 | each goroutine keeps a list of what it has allocated and not filled in; the analysis functions leave the list as it was, by induction on their structure; the lists of different goroutines are disjoint and open in the shared state. With the invariant of C41, all that is referred to has been filled in |
| C70 | comparability of each field type is the flag the generator computes |
| C58 | simulation between the specified reader on abstract messages and `MergeRecs` on Go values, in both directions |

## Sample cases

`Spec/Sample` and `Spec/SampleDecls` hold message types (`Node`, recursive, with map, Option, bytes, an untagged field; `Flat`;
`Pair`) and values which meet the hypotheses of the theorems; each group of theorems is followed by an `example` that
instantiates the hypotheses, or by a concrete run.

## Mutation tests

`seeded/LOG.jsonl`: realistic bugs put into the model in a scratch copy, the claims they break, and the theorems that no longer
prove. Theorems that survived a bug that falsifies their claim were tightened (field `tightened`). The copy is built as one file with
the edited definition and everything that depends on it; a theorem counts as failed if it, or a lemma it uses, no longer proves.
The same procedure on the unmodified model leaves all theorems intact.

## Trusted base

* The Lean 4.33.0 kernel.
* The axioms below; no axioms of our own, no `sorry`, no `native_decide`, no `bv_decide`. `decide +kernel` is used for concrete
  runs, which the kernel evaluates.
* The correspondence between Go code and model, which is by reading; every model definition cites file and lines. For the functions of
  C75 to C77 it is a theorem: there the trust is in `Spec/GoSyntax` and `Spec/GoExec` as a description of Go, and in `Model/Source` being the
  text in /repo. `tools/embed.py` compares the two; it and `tools/trees.py`, which writes `Model/SourceTree`, are not trusted
  otherwise. For type analysis it is C79, with `Spec/GoWide` and `Spec/GoWalk` as the description of Go. These do not run from text
  `formatWireTag`, `sizeOfVarint`, `appendVarint`, `alignedSize`, `strings.Split`, `strconv.Atoi`, `reflect` and `sync.Map`, and take
  which codec a set of function literals is from `bodyOf` (the literals are those C76 runs, `C79_literals`).
* That `reflect`, `sync.Map`, `sync.Pool`, `strconv` and Go's memory behave as described above.

<!-- axioms -->

### Axioms of each theorem (`#print axioms`)

**none**: `C44_constructors`, `C44_isNone`, `C60_false_given_default`.

**`Classical.choice`, `Quot.sound`, `propext`**: `C01_any_order_partial`, `C01_program_partial`, `C01_reads_back`, `C01_round_trip_partial`, `C02_any_order_partial`, `C02_false_for_maps`, `C02_program_partial`, `C02_size_is_length_partial`, `C03_false_for_bytes_pointer`, `C03_false_for_fixed_pointer`, `C03_program_safe_partial`, `C03_unmarshal_safe`, `C03_unmarshal_safe_arg`, `C04_depth_bound`, `C04_iterations`, `C04_progress`, `C04_terminates`, `C05_accepted_is_records_partial`, `C05_false_for_bool`, `C05_short_read_unreachable`, `C06_unknown_ignored`, `C06_unknown_ignored_accepted`, `C07_concat_is_merge`, `C08_accepted_prefix_is_boundary`, `C08_truncation`, `C09_wire_type_mismatch`, `C10_skippable`, `C10_unsupported_wire_types`, `C11_marshal_encodes_partial`, `C11_program_partial`, `C12_varint_canonical`, `C12_varint_is_leb128`, `C13_varint_decode`, `C13_varint_eof`, `C13_varint_overflow`, `C13_varint_within`, `C14_zigzag32_encode`, `C14_zigzag64_encode`, `C14_zigzag_decode`, `C15_fixed_encode`, `C16_absent_kept`, `C16_last_wins_partial`, `C16_program_partial`, `C16_record_replaces_partial`, `C17_appends_partial`, `C17_record_appends_message`, `C17_record_appends_partial`, `C18_bodies_merge`, `C18_record_merges`, `C19_option_survives`, `C19_written_iff_some`, `C20_zero_omitted`, `C21_bytes_survive`, `C21_written_iff_not_nil`, `C22_false_for_mixed_maps`, `C22_false_for_zigzag_maps`, `C22_false_int_to_string`, `C22_map_survives_partial`, `C23_empty_map_grows`, `C24_assignments`, `C24_entry_parts`, `C24_record_assigns`, `C25_marshal_ignores_untagged`, `C25_program_ignored`, `C25_program_untouched`, `C25_unmarshal_leaves_untagged`, `C26_frame_partial`, `C27_error_effects_partial`, `C27_failed_element_dropped`, `C27_failed_entry_dropped`, `C27_rest_irrelevant`, `C28_multi_byte_bool_desyncs`, `C28_one_byte_partial`, `C29_low_bits`, `C29_schema_change`, `C31_zero_message`, `C32_declared_wire_types_partial`, `C32_false_map_fixed32`, `C32_false_option_sfixed64`, `C32_false_repeated_fixed32`, `C32_false_repeated_fixed64`, `C32_false_sfixed32`, `C33_packed_refused`, `C34_fresh_elements_partial`, `C35_capacity`, `C35_fresh`, `C35_fresh_capacity`, `C35_growth`, `C35_program`, `C36_deterministic_without_maps`, `C36_false_equal_bytes`, `C36_runs_are_reorderings`, `C36_same_bytes`, `C36_same_records_partial`, `C36_size_ignores_order`, `C37_false_required_and_group`, `C37_tags_understood_partial`, `C38_false_maps`, `C38_false_repeated_fixed`, `C38_false_sfixed`, `C38_generated_program_handled`, `C38_round_trip_partial`, `C38_wire_format_partial`, `C39_false_oneof_not_read`, `C39_false_oneof_not_written`, `C39_fields_present`, `C40_false_field`, `C40_false_history`, `C40_fields_partial`, `C40_history_partial`, `C40_uniform`, `C41_acyclic_partial`, `C41_false_after_panic`, `C41_false_concurrent`, `C41_settled_partial`, `C42_completes`, `C43_as_values_partial`, `C43_fresh`, `C43_input_not_kept_partial`, `C43_input_not_written_partial`, `C43_slices_own_or_new`, `C43_writes_only_own`, `C45_bytes_stable_partial`, `C45_false_for_zero_pointers`, `C45_program_partial`, `C45_reencode_partial`, `C45_stable_after_one_trip_partial`, `C46_injective_partial`, `C46_same_bytes_same_message`, `C47_record_order`, `C48_accepted_iff`, `C48_at_record_boundary`, `C48_error_iff`, `C48_outcome_by_input`, `C48_program`, `C48_root_cause`, `C48_unwrapped_is_tag`, `C49_marshal_writes_all`, `C49_only_last_filled`, `C50_pointer_survives_partial`, `C50_pointer_to_zero_lost`, `C51_same_encoding`, `C52_append_only`, `C52_never_outgrown_partial`, `C53_accepted_partial`, `C53_accepts_iff`, `C53_ends`, `C53_entries`, `C53_false_nested_slices`, `C53_no_panic`, `C54_entry_tag_found`, `C54_parses`, `C54_parses_number`, `C54_refuses`, `C54_required_and_group_refused`, `C54_unambiguous`, `C55_division_of_records`, `C55_division_unique`, `C55_exact`, `C55_meaning_accepted`, `C55_meaning_unique`, `C55_program_exact`, `C55_program_partial`, `C55_refinement_partial`, `C56_false_mixing`, `C56_round_trip_partial`, `C56_wire_format_partial`, `C57_false_int_to_bool`, `C57_program_partial`, `C57_proto_partial`, `C57_versions_partial`, `C57_widening`, `C58_accepts_partial`, `C58_false_empty_map`, `C58_readers_agree`, `C58_reads_partial`, `C58_received_partial`, `C58_written_partial`, `C61_false_for_mixed_maps`, `C61_marshal`, `C61_program_partial`, `C61_representable`, `C61_round_trip_partial`, `C61_size`, `C61_unmarshal`, `C62_after_unmarshal_partial`, `C62_false_for_mixed_maps`, `C62_marshal_total_partial`, `C62_program_size_partial`, `C62_size_total`, `C63_assign`, `C63_cycle`, `C63_marshal_partial`, `C63_never_returns`, `C63_returns_iff`, `C63_round_trip_partial`, `C63_size`, `C63_unmarshal`, `C64_fresh`, `C64_linear`, `C64_program`, `C64_series`, `C65_false_after_unmarshal`, `C65_false_linear`, `C65_quadratic_partial`, `C65_size_linear`, `C66_depth_partial`, `C66_false_no_limit`, `C66_levels`, `C67_completes`, `C67_marshal`, `C67_no_fault`, `C67_no_race`, `C67_pool`, `C67_size`, `C67_unmarshal`, `C67_unmarshal_graph`, `C68_agrees_or_panics`, `C68_false_int32`, `C68_false_marshal_int32`, `C68_int64`, `C68_marshal_int64`, `C68_marshal_partial`, `C68_unmarshal_partial`, `C69_comments_harmless`, `C69_false_directive`, `C69_false_nul`, `C69_false_path`, `C69_program`, `C69_source_reads`, `C69_struct_means`, `C69_wire_format_partial`, `C70_marker`, `C70_never_comparable`, `C71_false_descriptor`, `C71_false_duplicates`, `C71_forwarded_partial`, `C71_nothing_else`, `C71_private_imports_silent`, `C71_source_reads`, `C72_false_nil_wrapper`, `C72_false_package_x`, `C72_getter_partial`, `C72_oneof_getter`, `C72_total`, `C73_false_int32`, `C73_program_partial`, `C73_text_determines_error_partial`, `C73_text_partial`, `C74_program_partial`, `C74_retry_partial`, `C74_twice_partial`, `C75_append`, `C75_bytes`, `C75_decode`, `C75_roundtrip`, `C75_scalar_decode`, `C75_scalar_encode`, `C75_scalar_size`, `C75_size`, `C76_decode`, `C76_encode`, `C76_round_trip_partial`, `C76_size`, `C77_marshal`, `C77_misuse`, `C77_program_partial`, `C77_program_safe_partial`, `C77_round_trip_partial`, `C77_size`, `C77_unmarshal`, `C78_required_functions`, `C78_required_runs`, `C78_required_true`, `C79_acyclic_partial`, `C79_analysis`, `C79_analysis_eq`, `C79_ends`, `C79_false_concurrent`, `C79_no_panic`, `C79_process`, `C79_settled_partial`, `C79_struct_tag`, `C80_false_concurrent`, `C80_marshal`, `C80_program_partial`, `C80_program_safe_partial`, `C80_protos_partial`, `C80_size`, `C80_unmarshal`, `C81_any_time_partial`, `C81_codec_found`, `C81_false_race`, `C81_fixed`, `C81_got_later_partial`, `C81_info_replaced`, `C81_no_race_partial`, `C81_one_writer`, `C81_reads_partial`, `C81_text_fixed`, `C81_text_reads_partial`, `C81_written_once`.

**`Quot.sound`, `propext`**: `C01_false_nil_element`, `C14_zigzag_bijective`, `C15_base256_value`, `C15_fixed_decode`, `C16_latest_functional`, `C17_false_for_bool`, `C23_false_for_node`, `C24_missing_parts`, `C26_false_for_bool`, `C28_false_for_two_bytes`, `C30_argument_checking_partial`, `C30_empty_input_any_argument`, `C30_nil_interface_panics`, `C31_empty_input`, `C34_false_with_stale_spare`, `C42_exclusive`, `C42_progress`, `C42_result`, `C42_scratch_zero`, `C43_false_earlier_slices`, `C43_false_overlap`, `C45_false_for_empty_maps`, `C46_false_for_noncanonical`, `C51_same_decoder`, `C57_integers_kept`, `C59_declared_once`, `C59_enums_declared`, `C59_messages_declared`, `C61_layout`, `C61_new`, `C63_aliases_change`, `C63_new`, `C64_counts`, `C65_marshal_counts`, `C65_marshal_partial`, `C65_size_counts`, `C67_needs_own_message`, `C68_false_field_number`, `C68_size`, `C71_false_exponential`, `C73_false_nil_interface`, `C73_misuse`, `C73_unambiguous`, `C74_false_repeated`, `C74_false_retry`, `C75_zigzag`, `C78_false_shadow`, `C78_required_kept`.

**`propext`**: `C44_distinct`, `C44_none`, `C44_some`, `C57_new_field`, `C57_plain_field`, `C60_false_nil_wrapper`, `C60_getter_partial`, `C73_misuse_or_input`, `C75_codecs`, `C75_read`, `C78_false_method`, `C78_option_file`, `C78_option_text`, `C78_required_file`, `C79_literals`, `C79_trees`.
