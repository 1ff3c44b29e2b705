{
 "claims": [
  {
   "property": "C01",
   "status": "partial",
   "theorems": [
    "Pb.Props.C01_any_order_partial",
    "Pb.Props.C01_program_partial",
    "Pb.Props.C01_reads_back",
    "Pb.Props.C01_round_trip_partial",
    "Pb.Props.C01_false_nil_element"
   ],
   "note": "C01_reads_back says exactly what comes back for every supported message; equality for canonical messages (C01_round_trip_partial, and from the declarations on C01_program_partial). The unrestricted claim is false: C01_false_nil_element, C22_false_for_mixed_maps, C23_empty_map_grows, C50_pointer_to_zero_lost."
  },
  {
   "property": "C02",
   "status": "partial",
   "theorems": [
    "Pb.Props.C02_any_order_partial",
    "Pb.Props.C02_program_partial",
    "Pb.Props.C02_false_for_maps",
    "Pb.Props.C02_size_is_length_partial"
   ],
   "note": "Proved for all messages whose maps have key and value types that are measured alike; false for others: C02_false_for_maps."
  },
  {
   "property": "C03",
   "status": "partial",
   "theorems": [
    "Pb.Props.C03_program_safe_partial",
    "Pb.Props.C03_false_for_fixed_pointer",
    "Pb.Props.C03_false_for_bytes_pointer",
    "Pb.Props.C03_unmarshal_safe",
    "Pb.Props.C03_unmarshal_safe_arg"
   ],
   "note": "Proved for every type info that agrees with the memory layout and for all programs analysis gets right (ProgramSane); false for accepted declarations analysis gets wrong: C03_false_for_fixed_pointer, C03_false_for_bytes_pointer."
  },
  {
   "property": "C04",
   "status": "proved",
   "theorems": [
    "Pb.Props.C04_depth_bound",
    "Pb.Props.C04_terminates",
    "Pb.Props.C04_iterations",
    "Pb.Props.C04_progress"
   ],
   "note": "Depth bound, iteration bound and progress."
  },
  {
   "property": "C05",
   "status": "partial",
   "theorems": [
    "Pb.Props.C05_accepted_is_records_partial",
    "Pb.Props.C05_false_for_bool",
    "Pb.Props.C05_short_read_unreachable"
   ],
   "note": "False for bool fields with multi-byte payloads (C05_false_for_bool); proved for inputs without those, in particular for types without bool. The short-read error is unreachable for all types."
  },
  {
   "property": "C06",
   "status": "proved",
   "theorems": [
    "Pb.Props.C06_unknown_ignored",
    "Pb.Props.C06_unknown_ignored_accepted"
   ],
   "note": "Before the insertion point bool records must have one-byte payloads, or the prefix must be accepted (C06_unknown_ignored_accepted, all types)."
  },
  {
   "property": "C07",
   "status": "proved",
   "theorems": [
    "Pb.Props.C07_concat_is_merge"
   ],
   "note": ""
  },
  {
   "property": "C08",
   "status": "proved",
   "theorems": [
    "Pb.Props.C08_truncation",
    "Pb.Props.C08_accepted_prefix_is_boundary"
   ],
   "note": ""
  },
  {
   "property": "C09",
   "status": "proved",
   "theorems": [
    "Pb.Props.C09_wire_type_mismatch"
   ],
   "note": ""
  },
  {
   "property": "C10",
   "status": "proved",
   "theorems": [
    "Pb.Props.C10_unsupported_wire_types",
    "Pb.Props.C10_skippable"
   ],
   "note": ""
  },
  {
   "property": "C11",
   "status": "partial",
   "theorems": [
    "Pb.Props.C11_program_partial",
    "Pb.Props.C11_marshal_encodes_partial"
   ],
   "note": "Marshal writes what the declarations say (C11_program_partial, against a specification without codecs). Excluded: fixed-width types the library writes wrongly (C32 negations) and mixed maps (C22_false_for_mixed_maps)."
  },
  {
   "property": "C12",
   "status": "proved",
   "theorems": [
    "Pb.Props.C12_varint_canonical",
    "Pb.Props.C12_varint_is_leb128"
   ],
   "note": ""
  },
  {
   "property": "C13",
   "status": "proved",
   "theorems": [
    "Pb.Props.C13_varint_decode",
    "Pb.Props.C13_varint_overflow",
    "Pb.Props.C13_varint_eof",
    "Pb.Props.C13_varint_within"
   ],
   "note": ""
  },
  {
   "property": "C14",
   "status": "proved",
   "theorems": [
    "Pb.Props.C14_zigzag64_encode",
    "Pb.Props.C14_zigzag32_encode",
    "Pb.Props.C14_zigzag_bijective",
    "Pb.Props.C14_zigzag_decode"
   ],
   "note": ""
  },
  {
   "property": "C15",
   "status": "proved",
   "theorems": [
    "Pb.Props.C15_fixed_encode",
    "Pb.Props.C15_fixed_decode",
    "Pb.Props.C15_base256_value"
   ],
   "note": ""
  },
  {
   "property": "C16",
   "status": "partial",
   "theorems": [
    "Pb.Props.C16_record_replaces_partial",
    "Pb.Props.C16_last_wins_partial",
    "Pb.Props.C16_absent_kept",
    "Pb.Props.C16_latest_functional",
    "Pb.Props.C16_program_partial"
   ],
   "note": "Proved for all inputs whose bool records have one-byte payloads; false for longer ones: C28_multi_byte_bool_desyncs."
  },
  {
   "property": "C17",
   "status": "partial",
   "theorems": [
    "Pb.Props.C17_record_appends_partial",
    "Pb.Props.C17_record_appends_message",
    "Pb.Props.C17_appends_partial",
    "Pb.Props.C17_false_for_bool"
   ],
   "note": "Proved for all inputs whose bool records have one-byte payloads (message elements: without restriction); false for longer ones: C17_false_for_bool."
  },
  {
   "property": "C18",
   "status": "proved",
   "theorems": [
    "Pb.Props.C18_record_merges",
    "Pb.Props.C18_bodies_merge"
   ],
   "note": ""
  },
  {
   "property": "C19",
   "status": "proved",
   "theorems": [
    "Pb.Props.C19_written_iff_some",
    "Pb.Props.C19_option_survives"
   ],
   "note": ""
  },
  {
   "property": "C20",
   "status": "proved",
   "theorems": [
    "Pb.Props.C20_zero_omitted"
   ],
   "note": ""
  },
  {
   "property": "C21",
   "status": "proved",
   "theorems": [
    "Pb.Props.C21_written_iff_not_nil",
    "Pb.Props.C21_bytes_survive"
   ],
   "note": ""
  },
  {
   "property": "C22",
   "status": "partial",
   "theorems": [
    "Pb.Props.C22_false_for_mixed_maps",
    "Pb.Props.C22_false_for_zigzag_maps",
    "Pb.Props.C22_false_int_to_string",
    "Pb.Props.C22_map_survives_partial"
   ],
   "note": "Proved for maps whose key and value types are measured alike; false for mixed, zig-zag and fixed maps (C22_false_*, C32_false_map_fixed32)."
  },
  {
   "property": "C23",
   "status": "partial",
   "theorems": [
    "Pb.Props.C23_empty_map_grows",
    "Pb.Props.C23_false_for_node"
   ],
   "note": "The claim is false for every map field: C23_empty_map_grows proves what happens instead; C23_false_for_node is a concrete case."
  },
  {
   "property": "C24",
   "status": "proved",
   "theorems": [
    "Pb.Props.C24_record_assigns",
    "Pb.Props.C24_assignments",
    "Pb.Props.C24_missing_parts",
    "Pb.Props.C24_entry_parts"
   ],
   "note": ""
  },
  {
   "property": "C25",
   "status": "proved",
   "theorems": [
    "Pb.Props.C25_unmarshal_leaves_untagged",
    "Pb.Props.C25_marshal_ignores_untagged",
    "Pb.Props.C25_program_untouched",
    "Pb.Props.C25_program_ignored"
   ],
   "note": "From the declarations on: C25_program_untouched, C25_program_ignored."
  },
  {
   "property": "C26",
   "status": "partial",
   "theorems": [
    "Pb.Props.C26_frame_partial",
    "Pb.Props.C26_false_for_bool"
   ],
   "note": "False for bool (C26_false_for_bool); proved for inputs whose bool records have one-byte payloads."
  },
  {
   "property": "C27",
   "status": "partial",
   "theorems": [
    "Pb.Props.C27_error_effects_partial",
    "Pb.Props.C27_rest_irrelevant",
    "Pb.Props.C27_failed_element_dropped",
    "Pb.Props.C27_failed_entry_dropped"
   ],
   "note": "Proved for inputs whose bool records have one-byte payloads; C27_rest_irrelevant holds for all types."
  },
  {
   "property": "C28",
   "status": "partial",
   "theorems": [
    "Pb.Props.C28_one_byte_partial",
    "Pb.Props.C28_multi_byte_bool_desyncs",
    "Pb.Props.C28_false_for_two_bytes"
   ],
   "note": "Proved for one-byte payloads; false for all longer ones: C28_multi_byte_bool_desyncs."
  },
  {
   "property": "C29",
   "status": "proved",
   "theorems": [
    "Pb.Props.C29_low_bits",
    "Pb.Props.C29_schema_change"
   ],
   "note": ""
  },
  {
   "property": "C30",
   "status": "partial",
   "theorems": [
    "Pb.Props.C30_argument_checking_partial",
    "Pb.Props.C30_nil_interface_panics",
    "Pb.Props.C30_empty_input_any_argument"
   ],
   "note": "False for the nil interface: C30_nil_interface_panics; the rest is C30_argument_checking_partial."
  },
  {
   "property": "C31",
   "status": "proved",
   "theorems": [
    "Pb.Props.C31_empty_input",
    "Pb.Props.C31_zero_message"
   ],
   "note": ""
  },
  {
   "property": "C32",
   "status": "partial",
   "theorems": [
    "Pb.Props.C32_declared_wire_types_partial",
    "Pb.Props.C32_false_repeated_fixed32",
    "Pb.Props.C32_false_repeated_fixed64",
    "Pb.Props.C32_false_sfixed32",
    "Pb.Props.C32_false_option_sfixed64",
    "Pb.Props.C32_false_map_fixed32"
   ],
   "note": "Proved for handled programs; false for repeated and map fixed32/fixed64 and for sfixed types: C32_false_*."
  },
  {
   "property": "C33",
   "status": "proved",
   "theorems": [
    "Pb.Props.C33_packed_refused"
   ],
   "note": ""
  },
  {
   "property": "C34",
   "status": "partial",
   "theorems": [
    "Pb.Props.C34_fresh_elements_partial",
    "Pb.Props.C34_false_with_stale_spare"
   ],
   "note": "Proved for slices whose spare slots are nil; false otherwise: C34_false_with_stale_spare."
  },
  {
   "property": "C35",
   "status": "proved",
   "theorems": [
    "Pb.Props.C35_growth",
    "Pb.Props.C35_fresh",
    "Pb.Props.C35_capacity",
    "Pb.Props.C35_fresh_capacity",
    "Pb.Props.C35_program"
   ],
   "note": "Growth of string bytes, elements, entries and messages bounded for every outcome and prior contents; capacities within ten or twice the length."
  },
  {
   "property": "C36",
   "status": "partial",
   "theorems": [
    "Pb.Props.C36_runs_are_reorderings",
    "Pb.Props.C36_size_ignores_order",
    "Pb.Props.C36_same_bytes",
    "Pb.Props.C36_deterministic_without_maps",
    "Pb.Props.C36_same_records_partial",
    "Pb.Props.C36_false_equal_bytes"
   ],
   "note": "Size, length and the multiset of bytes for every message and order; the records for messages without wrongly measured maps (map.go:80). Byte equality is false with two entries: C36_false_equal_bytes."
  },
  {
   "property": "C37",
   "status": "partial",
   "theorems": [
    "Pb.Props.C37_tags_understood_partial",
    "Pb.Props.C37_false_required_and_group"
   ],
   "note": "Proved, from the rendered tag text through StructTag.Lookup to the parser, for all fields except required ones and groups, for which it is false in every message: C37_false_required_and_group."
  },
  {
   "property": "C38",
   "status": "partial",
   "theorems": [
    "Pb.Props.C38_generated_program_handled",
    "Pb.Props.C38_wire_format_partial",
    "Pb.Props.C38_round_trip_partial",
    "Pb.Props.C38_false_sfixed",
    "Pb.Props.C38_false_repeated_fixed",
    "Pb.Props.C38_false_maps"
   ],
   "note": "Generated messages are written as the .proto file says (ProtoMsg, stated without tags or codecs) and read back, for the types in Handled; false for sfixed32/64, repeated fixed32/64 and zig-zag, fixed or mixed maps: C38_false_*."
  },
  {
   "property": "C39",
   "status": "partial",
   "theorems": [
    "Pb.Props.C39_fields_present",
    "Pb.Props.C39_false_oneof_not_written",
    "Pb.Props.C39_false_oneof_not_read"
   ],
   "note": "Fields outside of oneofs have an entry with their number and wire type (C39_fields_present) and are transmitted (C38); false for oneof members in every message: C39_false_oneof_not_written, C39_false_oneof_not_read."
  },
  {
   "property": "C40",
   "status": "partial",
   "theorems": [
    "Pb.Props.C40_uniform",
    "Pb.Props.C40_history_partial",
    "Pb.Props.C40_fields_partial",
    "Pb.Props.C40_false_field",
    "Pb.Props.C40_false_history"
   ],
   "note": "False of the library: C40_false_field and C40_false_history are runs in which a repeated sint32 field is encoded as int32 or not, depending on the other fields and on the types used before. Proved (C40_history_partial, C40_fields_partial) for programs in which no analysis asks for codecs of one Go type with different settings (Consistent; C40_uniform gives a simple sufficient condition met by generated programs that do not mix int32 and sint32 in repeated fields), for every history and interleaving if no type contains itself, and once all calls have got their type info otherwise."
  },
  {
   "property": "C41",
   "status": "partial",
   "theorems": [
    "Pb.Props.C41_acyclic_partial",
    "Pb.Props.C41_settled_partial",
    "Pb.Props.C41_false_concurrent",
    "Pb.Props.C41_false_after_panic"
   ],
   "note": "False of the library for message types that contain each other: C41_false_concurrent (a goroutine uses a type info without fields and silently loses data) and C41_false_after_panic (the same for ever after a panic). Proved for every interleaving, with panics, if no type contains itself (C41_acyclic_partial), and for recursive types once all calls have got their type info (C41_settled_partial), for Consistent programs."
  },
  {
   "property": "C42",
   "status": "proved",
   "theorems": [
    "Pb.Props.C42_scratch_zero",
    "Pb.Props.C42_exclusive",
    "Pb.Props.C42_result",
    "Pb.Props.C42_progress",
    "Pb.Props.C42_completes"
   ],
   "note": "Transition system of any number of concurrent Unmarshal calls with shared scratch memory, pools that may return nil or any struct, and garbage collection. Invariant by induction over all interleavings: pooled structs are zero, a struct is used by one call at a time, every call returns what it returns alone."
  },
  {
   "property": "C43",
   "status": "partial",
   "theorems": [
    "Pb.Props.C43_writes_only_own",
    "Pb.Props.C43_slices_own_or_new",
    "Pb.Props.C43_input_not_written_partial",
    "Pb.Props.C43_input_not_kept_partial",
    "Pb.Props.C43_as_values_partial",
    "Pb.Props.C43_fresh",
    "Pb.Props.C43_false_earlier_slices",
    "Pb.Props.C43_false_overlap"
   ],
   "note": "Model/Heap.lean puts byte slices and the input into one memory, any overlaps allowed. Proved without conditions: Unmarshal writes only to arrays the message holds and to new memory, slices afterwards lie in those. If the byte slices of the message do not overlap the input: input not written, later writes to it do not change the message; if they also do not overlap each other, results are those of the value model. Fresh messages: unconditional. False as stated: decodeBytes reuses the array, so slices taken earlier are overwritten (C43_false_earlier_slices), and a message slice overlapping the input corrupts it (C43_false_overlap). Not modelled: sharing of structs, maps and element arrays between messages."
  },
  {
   "property": "C44",
   "status": "proved",
   "theorems": [
    "Pb.Props.C44_some",
    "Pb.Props.C44_none",
    "Pb.Props.C44_isNone",
    "Pb.Props.C44_distinct",
    "Pb.Props.C44_constructors"
   ],
   "note": ""
  },
  {
   "property": "C45",
   "status": "partial",
   "theorems": [
    "Pb.Props.C45_bytes_stable_partial",
    "Pb.Props.C45_reencode_partial",
    "Pb.Props.C45_stable_after_one_trip_partial",
    "Pb.Props.C45_program_partial",
    "Pb.Props.C45_false_for_empty_maps",
    "Pb.Props.C45_false_for_zero_pointers"
   ],
   "note": "Proved for accepted inputs whose result has no empty map and no pointer to zero, false otherwise (C45_false_for_empty_maps, C45_false_for_zero_pointers); stable for all messages after one round trip. Maps measured wrong (map.go:80) excluded."
  },
  {
   "property": "C46",
   "status": "partial",
   "theorems": [
    "Pb.Props.C46_same_bytes_same_message",
    "Pb.Props.C46_injective_partial",
    "Pb.Props.C46_false_for_noncanonical"
   ],
   "note": "Injective on canonical messages; false in general: C46_false_for_noncanonical."
  },
  {
   "property": "C47",
   "status": "proved",
   "theorems": [
    "Pb.Props.C47_record_order"
   ],
   "note": ""
  },
  {
   "property": "C48",
   "status": "proved",
   "theorems": [
    "Pb.Props.C48_error_iff",
    "Pb.Props.C48_accepted_iff",
    "Pb.Props.C48_outcome_by_input",
    "Pb.Props.C48_root_cause",
    "Pb.Props.C48_unwrapped_is_tag",
    "Pb.Props.C48_at_record_boundary",
    "Pb.Props.C48_program"
   ],
   "note": "Exact characterisation of acceptance and errors, also for bools; Spec/Errors.lean."
  },
  {
   "property": "C49",
   "status": "proved",
   "theorems": [
    "Pb.Props.C49_only_last_filled",
    "Pb.Props.C49_marshal_writes_all"
   ],
   "note": ""
  },
  {
   "property": "C50",
   "status": "partial",
   "theorems": [
    "Pb.Props.C50_pointer_survives_partial",
    "Pb.Props.C50_pointer_to_zero_lost"
   ],
   "note": "Pointers to non-zero scalars and nil survive; a pointer to zero comes back nil: C50_pointer_to_zero_lost."
  },
  {
   "property": "C51",
   "status": "proved",
   "theorems": [
    "Pb.Props.C51_same_encoding",
    "Pb.Props.C51_same_decoder"
   ],
   "note": ""
  },
  {
   "property": "C52",
   "status": "partial",
   "theorems": [
    "Pb.Props.C52_append_only",
    "Pb.Props.C52_never_outgrown_partial"
   ],
   "note": "Append-only for all codecs; never outgrown where Size is right (C02)."
  },
  {
   "property": "C53",
   "status": "partial",
   "theorems": [
    "Pb.Props.C53_ends",
    "Pb.Props.C53_no_panic",
    "Pb.Props.C53_accepted_partial",
    "Pb.Props.C53_false_nested_slices",
    "Pb.Props.C53_accepts_iff",
    "Pb.Props.C53_entries"
   ],
   "note": "Acceptance is characterised exactly per struct type (C53_accepts_iff). With the shared caches and for every behaviour of other goroutines: analysis of finitely many types, recursive ones included, ends (C53_ends) and does not panic on supported types (C53_no_panic). A returned type info implies that all types involved are supported for Consistent programs that are acyclic or settled (C53_accepted_partial); that part is false in general: C53_false_nested_slices, C41_false_after_panic."
  },
  {
   "property": "C54",
   "status": "proved",
   "theorems": [
    "Pb.Props.C54_entry_tag_found",
    "Pb.Props.C54_parses",
    "Pb.Props.C54_parses_number",
    "Pb.Props.C54_refuses",
    "Pb.Props.C54_unambiguous",
    "Pb.Props.C54_required_and_group_refused"
   ],
   "note": ""
  },
  {
   "property": "C55",
   "status": "partial",
   "theorems": [
    "Pb.Props.C55_meaning_accepted",
    "Pb.Props.C55_refinement_partial",
    "Pb.Props.C55_meaning_unique",
    "Pb.Props.C55_exact",
    "Pb.Props.C55_program_exact",
    "Pb.Props.C55_division_unique",
    "Pb.Props.C55_division_of_records",
    "Pb.Props.C55_program_partial"
   ],
   "note": "C55_exact says for all types, bools included, what is accepted and with which result (Spec/Reading); C55_division_of_records relates it to protobuf. With the records of the protobuf specification: both directions for types without bool, C55_meaning_accepted and C55_meaning_unique for all types; the missing direction is false for bools of more than one byte (C05_false_for_bool, and the example in Props/Reading)."
  },
  {
   "property": "C56",
   "status": "partial",
   "theorems": [
    "Pb.Props.C56_wire_format_partial",
    "Pb.Props.C56_round_trip_partial",
    "Pb.Props.C56_false_mixing"
   ],
   "note": "Proved for .proto programs with handled types, maps of like types, no mixing of int32 and sint32 in repeated fields of one message tree, for acyclic messages in all states and for recursive ones in settled states; false otherwise: C56_false_mixing, C38_false_*, C41_false_concurrent."
  },
  {
   "property": "C57",
   "status": "partial",
   "theorems": [
    "Pb.Props.C57_versions_partial",
    "Pb.Props.C57_program_partial",
    "Pb.Props.C57_proto_partial",
    "Pb.Props.C57_plain_field",
    "Pb.Props.C57_integers_kept",
    "Pb.Props.C57_widening",
    "Pb.Props.C57_new_field",
    "Pb.Props.C57_false_int_to_bool"
   ],
   "note": "Proved for all pairs of type infos, programs and .proto files whose fields with equal numbers are compatible (Versions, ProtoVersions), all values and targets, nested and recursive. What a receiver gets is stated independently of encoding (TakesMsg); C57_integers_kept and C57_widening say when numbers survive. Missing: senders with maps that are measured wrong (C02, C22); integers to bool is false (C57_false_int_to_bool); packed and unpacked do not interoperate (C33)."
  },
  {
   "property": "C58",
   "status": "partial",
   "theorems": [
    "Pb.Props.C58_reads_partial",
    "Pb.Props.C58_received_partial",
    "Pb.Props.C58_accepts_partial",
    "Pb.Props.C58_written_partial",
    "Pb.Props.C58_readers_agree",
    "Pb.Props.C58_false_empty_map"
   ],
   "note": "Stated with abstract messages (Spec/Abstract): a reader that follows the specification is the relation ParseMsg, which knows nothing of the library; Go values stand for messages by ReprMsg. Proved for all .proto programs without oneofs whose types are handled. Missing: oneofs (C39), packed fields (C33), multi-byte bools in the converse (C28), maps that are empty but not nil (C58_false_empty_map: the reader gets an entry {0: 0}) or measured wrong (C02, C22)."
  },
  {
   "property": "C59",
   "status": "proved",
   "theorems": [
    "Pb.Props.C59_messages_declared",
    "Pb.Props.C59_enums_declared",
    "Pb.Props.C59_declared_once"
   ],
   "note": "Extensions are collected by the generator but nothing is generated for them; not modelled."
  },
  {
   "property": "C60",
   "status": "partial",
   "theorems": [
    "Pb.Props.C60_getter_partial",
    "Pb.Props.C60_false_nil_wrapper",
    "Pb.Props.C60_false_given_default"
   ],
   "note": "False for defaults given in the .proto file, which are ignored (C60_false_given_default); proved for all fields without. False for a typed nil pointer to the wrapper struct of the member in the interface: the getter panics (C60_false_nil_wrapper); proved for all other receivers."
  },
  {
   "property": "C61",
   "status": "partial",
   "theorems": [
    "Pb.Props.C61_size",
    "Pb.Props.C61_marshal",
    "Pb.Props.C61_unmarshal",
    "Pb.Props.C61_new",
    "Pb.Props.C61_representable",
    "Pb.Props.C61_layout",
    "Pb.Props.C61_round_trip_partial",
    "Pb.Props.C61_program_partial",
    "Pb.Props.C61_false_for_mixed_maps"
   ],
   "note": "False for Marshal of maps whose key and value types differ: map.go:80 reads the value as a key, beyond its allocation (C61_false_for_mixed_maps); Marshal is proved for all messages on which the value-level marshal returns, Unmarshal for all inputs, and the round trip under the conditions of C01. Maps of the runtime are abstract objects; the scratch entry is new each time."
  },
  {
   "property": "C62",
   "status": "partial",
   "theorems": [
    "Pb.Props.C62_size_total",
    "Pb.Props.C62_marshal_total_partial",
    "Pb.Props.C62_program_size_partial",
    "Pb.Props.C62_after_unmarshal_partial",
    "Pb.Props.C62_false_for_mixed_maps"
   ],
   "note": "Size is proved for all messages. False for Marshal of maps whose key is a string and whose value is not (C62_false_for_mixed_maps); Marshal is proved for all messages whose maps have keys and values of the same memory, which is more than C02 and C22 cover."
  },
  {
   "property": "C63",
   "status": "partial",
   "theorems": [
    "Pb.Props.C63_unmarshal",
    "Pb.Props.C63_new",
    "Pb.Props.C63_assign",
    "Pb.Props.C63_size",
    "Pb.Props.C63_marshal_partial",
    "Pb.Props.C63_never_returns",
    "Pb.Props.C63_returns_iff",
    "Pb.Props.C63_round_trip_partial",
    "Pb.Props.C63_aliases_change",
    "Pb.Props.C63_cycle"
   ],
   "note": "Unmarshal and Size are proved without restriction; Marshal for programs whose maps have keys and values of the same memory (else false, C62_false_for_mixed_maps). \"Never returns\" is: no recursion depth suffices. Keys and values of maps cannot be pointed to, as in Go; scratch entries are new each time (see C42)."
  },
  {
   "property": "C64",
   "status": "proved",
   "theorems": [
    "Pb.Props.C64_counts",
    "Pb.Props.C64_linear",
    "Pb.Props.C64_fresh",
    "Pb.Props.C64_series",
    "Pb.Props.C64_program"
   ],
   "note": "Twelve steps per byte; steps are loop iterations, bytes looked at by decodeVarint, copied bytes and slots zeroed or copied when a slice grows (Model/Cost.lean, proved to compute the same as the model without counters). Costs of the Go allocator and of the map implementation are not modelled."
  },
  {
   "property": "C65",
   "status": "partial",
   "theorems": [
    "Pb.Props.C65_size_counts",
    "Pb.Props.C65_marshal_counts",
    "Pb.Props.C65_size_linear",
    "Pb.Props.C65_marshal_partial",
    "Pb.Props.C65_false_linear",
    "Pb.Props.C65_false_after_unmarshal",
    "Pb.Props.C65_quadratic_partial"
   ],
   "note": "Size is proved linear. False for Marshal: every level of nesting measures all levels below it again, so that Marshal is quadratic for chains of messages (C65_false_linear), also for chains read by Unmarshal (C65_false_after_unmarshal). Proved instead: at most as many Size passes as levels, and quadratic in the input for messages read from it."
  },
  {
   "property": "C66",
   "status": "partial",
   "theorems": [
    "Pb.Props.C66_levels",
    "Pb.Props.C66_depth_partial",
    "Pb.Props.C66_false_no_limit"
   ],
   "note": "False of the library: C66_false_no_limit, an input of at most 20K bytes is accepted that is nested K deep. Proved: nesting is at most half the length of the input, and what a recursion of depth d can produce."
  },
  {
   "property": "C67",
   "status": "proved",
   "theorems": [
    "Pb.Props.C67_no_fault",
    "Pb.Props.C67_no_race",
    "Pb.Props.C67_pool",
    "Pb.Props.C67_size",
    "Pb.Props.C67_marshal",
    "Pb.Props.C67_unmarshal",
    "Pb.Props.C67_unmarshal_graph",
    "Pb.Props.C67_completes",
    "Pb.Props.C67_needs_own_message"
   ],
   "note": "Transition system over single memory accesses of all calls. Type infos are complete before the calls start (analysis is C40, C41). C67_needs_own_message: without the condition on messages there is a race."
  },
  {
   "property": "C68",
   "status": "partial",
   "theorems": [
    "Pb.Props.C68_agrees_or_panics",
    "Pb.Props.C68_unmarshal_partial",
    "Pb.Props.C68_int64",
    "Pb.Props.C68_size",
    "Pb.Props.C68_marshal_partial",
    "Pb.Props.C68_marshal_int64",
    "Pb.Props.C68_false_marshal_int32",
    "Pb.Props.C68_false_int32",
    "Pb.Props.C68_false_field_number"
   ],
   "note": "Holds with 64-bit ints for inputs below 2^62 bytes (C68_int64). With w-bit ints: C68_agrees_or_panics for inputs whose varints fit, and without the panic below a quarter of the address space. False with 32-bit ints: the check of struct.go:75 leaves out the offset, so an input just above 1 GiB panics (C68_false_int32), and field numbers are taken modulo 2^32 (C68_false_field_number). Marshal: right for all messages whose size fits by a margin of 20 (C68_marshal_partial), so with 64 bits below 2^62 bytes (C68_marshal_int64); with 32 bits a message that repeats a string of 1 MiB 2048 times panics (C68_false_marshal_int32)."
  },
  {
   "property": "C69",
   "status": "proved",
   "theorems": [
    "Pb.Props.C69_source_reads",
    "Pb.Props.C69_comments_harmless",
    "Pb.Props.C69_struct_means",
    "Pb.Props.C69_program",
    "Pb.Props.C69_wire_format_partial",
    "Pb.Props.C69_false_nul",
    "Pb.Props.C69_false_path",
    "Pb.Props.C69_false_directive"
   ],
   "note": "The lexer and parser of Spec/GoSource follow the Go language specification for the part generated files use. C69_wire_format_partial adds C38 under its conditions. Public imports are C71. Not covered: weak fields, names outside ASCII, what protogen does with the text afterwards (imports, layout). False for comments with NUL (C69_false_nul) and for paths with a line break (C69_false_path); a comment that begins with go: becomes a directive (C69_false_directive)."
  },
  {
   "property": "C70",
   "status": "proved",
   "theorems": [
    "Pb.Props.C70_never_comparable",
    "Pb.Props.C70_marker"
   ],
   "note": "Comparability as in the Go specification, on the types in the generated text."
  },
  {
   "property": "C71",
   "status": "partial",
   "theorems": [
    "Pb.Props.C71_source_reads",
    "Pb.Props.C71_forwarded_partial",
    "Pb.Props.C71_nothing_else",
    "Pb.Props.C71_private_imports_silent",
    "Pb.Props.C71_false_descriptor",
    "Pb.Props.C71_false_duplicates",
    "Pb.Props.C71_false_exponential"
   ],
   "note": "C71_forwarded_partial leaves out symbols named like the file descriptor, for which the claim is false (C71_false_descriptor). Two public imports with the same symbol give a file that does not compile (C71_false_duplicates). The imported text is read back with the parser of Spec/GoSource, and what protogen does with it before is not modelled. The number of generator runs is exponential in the depth of imports (C71_false_exponential)."
  },
  {
   "property": "C72",
   "status": "partial",
   "theorems": [
    "Pb.Props.C72_getter_partial",
    "Pb.Props.C72_total",
    "Pb.Props.C72_oneof_getter",
    "Pb.Props.C72_false_nil_wrapper",
    "Pb.Props.C72_false_package_x"
   ],
   "note": "The text is parsed (C69) and the method bodies are run by an interpreter of the statements that occur (Spec/GoRun). False for nil wrapper pointers (C72_false_nil_wrapper, a panic) and for enums of a package imported as x, which the receiver hides (C72_false_package_x, not compilable); proved for all other receivers and names. Unused variables and the like are not checked."
  },
  {
   "property": "C73",
   "status": "partial",
   "theorems": [
    "Pb.Props.C73_text_partial",
    "Pb.Props.C73_unambiguous",
    "Pb.Props.C73_text_determines_error_partial",
    "Pb.Props.C73_program_partial",
    "Pb.Props.C73_false_int32",
    "Pb.Props.C73_misuse",
    "Pb.Props.C73_misuse_or_input",
    "Pb.Props.C73_false_nil_interface"
   ],
   "note": "Proved for 64-bit integers and all arguments with a type. False for field numbers from 2^31 on with 32-bit integers (C73_false_int32: the text shows a negative number) and for the nil interface, which panics instead of giving the text prepared for it (C73_false_nil_interface)."
  },
  {
   "property": "C74",
   "status": "partial",
   "theorems": [
    "Pb.Props.C74_twice_partial",
    "Pb.Props.C74_retry_partial",
    "Pb.Props.C74_program_partial",
    "Pb.Props.C74_false_repeated",
    "Pb.Props.C74_false_retry"
   ],
   "note": "Proved for types without repeated fields, here and in nested messages, as is usual for protobuf (maps are allowed, with any values). False with repeated fields, whose elements are appended again: C74_false_repeated, C74_false_retry."
  },
  {
   "property": "C75",
   "status": "proved",
   "theorems": [
    "Pb.Props.C75_read",
    "Pb.Props.C75_zigzag",
    "Pb.Props.C75_size",
    "Pb.Props.C75_append",
    "Pb.Props.C75_decode",
    "Pb.Props.C75_roundtrip",
    "Pb.Props.C75_scalar_size",
    "Pb.Props.C75_scalar_encode",
    "Pb.Props.C75_scalar_decode",
    "Pb.Props.C75_bytes",
    "Pb.Props.C75_codecs"
   ],
   "note": "The text of the files is in Model/Source (compared with /repo by tools/embed.py), read by the parser of Spec/GoSyntax in the kernel and run by the interpreter of Spec/GoExec on the memory of Model/Value. Trusted: that parser and interpreter describe Go for the part of the language that occurs, and the standard library functions listed in Spec/GoExec (bits.Len64, math.Signbit, math.Float32bits and the like, binary.LittleEndian). Static errors (unused variables, imports) are not checked."
  },
  {
   "property": "C76",
   "status": "partial",
   "theorems": [
    "Pb.Props.C76_size",
    "Pb.Props.C76_encode",
    "Pb.Props.C76_decode",
    "Pb.Props.C76_round_trip_partial"
   ],
   "note": "size, encode and decode are proved for all message types, encode and the round trip for those with scalar map keys (the only ones Go generators make). MakeMap, MapAssign, Assign and sync.Pool are described in Spec/Source and Spec/GoExec, not run from a text; a pool may give something or not at every call, and what is put back must be zero. The variables captured by function literals (codec, element type, sizes of tags) are given by Spec/Source as walker.go computes them (C53, C54). The statements are for runs in which the model succeeds or returns an error, not for those where it panics. Results must be within int: inputs below 2^57 bytes, slices with fewer elements than that. The round trip has the limits of C01."
  },
  {
   "property": "C77",
   "status": "partial",
   "theorems": [
    "Pb.Props.C77_misuse",
    "Pb.Props.C77_size",
    "Pb.Props.C77_marshal",
    "Pb.Props.C77_unmarshal",
    "Pb.Props.C77_round_trip_partial",
    "Pb.Props.C77_program_safe_partial",
    "Pb.Props.C77_program_partial"
   ],
   "note": "All kinds of arguments and messages. cachedStructInfoOf (proto.go:111-125) is a primitive that panics for types that are not structs and otherwise gives the structInfo of the type, which is that of C45, C53 and C54; pointer (proto.go:72-74), reflect.TypeOf, Kind and Elem are primitives of the interpreter. Runs on messages in which the model panics are not covered, nor message types with map keys that are not scalars in Marshal. The round trip has the limits of C01, and the statements for whole programs those of C54."
  },
  {
   "property": "C78",
   "status": "partial",
   "theorems": [
    "Pb.Props.C78_required_file",
    "Pb.Props.C78_required_runs",
    "Pb.Props.C78_required_true",
    "Pb.Props.C78_required_functions",
    "Pb.Props.C78_required_kept",
    "Pb.Props.C78_false_shadow",
    "Pb.Props.C78_false_method",
    "Pb.Props.C78_option_file",
    "Pb.Props.C78_option_text"
   ],
   "note": "Files are compared as declarations (required) and as tokens (option): go/parser, go/format, comments and layout are not modelled. The transformation preserves meaning only if the names declared in top-level if statements are not in use and, if there are such names, the if returns or is followed by a return statement without them; the 24 functions meet this (C78_required_functions), without it the claim is false (C78_false_shadow). A file with a method is written without being filtered (C78_false_method)."
  },
  {
   "property": "C79",
   "status": "proved",
   "theorems": [
    "Pb.Props.C79_trees",
    "Pb.Props.C79_literals",
    "Pb.Props.C79_analysis",
    "Pb.Props.C79_analysis_eq",
    "Pb.Props.C79_process",
    "Pb.Props.C79_acyclic_partial",
    "Pb.Props.C79_settled_partial",
    "Pb.Props.C79_ends",
    "Pb.Props.C79_no_panic",
    "Pb.Props.C79_struct_tag",
    "Pb.Props.C79_false_concurrent"
   ],
   "note": "cachedStructInfoOf and all analysis functions, for all declarations and all contents of the caches. The text is read by Spec/GoWide and run by Spec/GoWalk; reflect, sync.Map, strings.Split, strconv.Atoi, formatWireTag, sizeOfVarint, appendVarint and alignedSize are primitives there. Setting the functions of a codec, and the fields of a type info, is one operation, as in Model/Cache. Text and model are equal if messages are in fields by pointers only and Option types have codecs (C79_analysis_eq); otherwise they differ by one allocation before a panic (C79_analysis). C79_acyclic_partial and C79_settled_partial have the limits of C41, which are faults of the text as well (C79_false_concurrent)."
  },
  {
   "property": "C80",
   "status": "partial",
   "theorems": [
    "Pb.Props.C80_size",
    "Pb.Props.C80_marshal",
    "Pb.Props.C80_unmarshal",
    "Pb.Props.C80_program_safe_partial",
    "Pb.Props.C80_program_partial",
    "Pb.Props.C80_protos_partial",
    "Pb.Props.C80_false_concurrent"
   ],
   "note": "Size, Marshal and Unmarshal are the model functions on envOf for every state a process of goroutines running the text gets into (C80_size, C80_marshal, C80_unmarshal), under the conditions of C79 and, for the round trip and wire format, of C01, C38 and C56. Missing: recursive message types while an analysis is going on, for which it is false (C80_false_concurrent); oneofs, mixing of int32 and sint32 in repeated fields, maps with keys and values of different types. The shared state is fixed during one call; C81 shows that the part of it a call reads does not change."
  },
  {
   "property": "C81",
   "status": "partial",
   "theorems": [
    "Pb.Props.C81_written_once",
    "Pb.Props.C81_one_writer",
    "Pb.Props.C81_fixed",
    "Pb.Props.C81_codec_found",
    "Pb.Props.C81_reads_partial",
    "Pb.Props.C81_any_time_partial",
    "Pb.Props.C81_no_race_partial",
    "Pb.Props.C81_text_fixed",
    "Pb.Props.C81_text_reads_partial",
    "Pb.Props.C81_got_later_partial",
    "Pb.Props.C81_false_race",
    "Pb.Props.C81_info_replaced"
   ],
   "note": "Written once, by one goroutine, and fixed ever after, for all programs and schedules, no conditions (C81_written_once, C81_one_writer, C81_fixed, C81_codec_found); what a call reads is complete and stays the same under the conditions of C41 (C81_reads_partial, C81_no_race_partial), each object may be read at a time of its own (C81_any_time_partial), also for the text (C81_text_fixed, C81_text_reads_partial), and a type info can be used at any later time (C81_got_later_partial). Missing: recursive message types while an analysis is going on, for which it is false (C81_false_race). That structInfoCache can change is C81_info_replaced."
  }
 ]
}