{
 "claims": [
  {
   "property": "C01",
   "status": "proved",
   "theorems": [
    "Verif.Grpc.varint_round_trip",
    "Verif.Grpc.varint_is_minimal"
   ],
   "note": ""
  },
  {
   "property": "C02",
   "status": "proved",
   "theorems": [
    "Verif.Grpc.varint_size_exact"
   ],
   "note": ""
  },
  {
   "property": "C03",
   "status": "proved",
   "theorems": [
    "Verif.Grpc.varint_accepts_iff",
    "Verif.Grpc.varint_truncated_iff",
    "Verif.Grpc.varint_overflow_iff",
    "Verif.Grpc.varint_total"
   ],
   "note": ""
  },
  {
   "property": "C04",
   "status": "proved",
   "theorems": [
    "Verif.Grpc.zigzag_encode_value",
    "Verif.Grpc.zigzag_decode_encode",
    "Verif.Grpc.zigzag_encode_decode",
    "Verif.Grpc.zigzag_ordered",
    "Verif.Grpc.bool_round_trip"
   ],
   "note": ""
  },
  {
   "property": "C05",
   "status": "proved",
   "theorems": [
    "Verif.Grpc.tag_round_trip",
    "Verif.Grpc.tag_injective",
    "Verif.Grpc.tag_accepts_iff"
   ],
   "note": ""
  },
  {
   "property": "C06",
   "status": "proved",
   "theorems": [
    "Verif.Grpc.fixed32_round_trip",
    "Verif.Grpc.fixed64_round_trip",
    "Verif.Grpc.fixed_truncated_iff",
    "Verif.Grpc.bytes_round_trip",
    "Verif.Grpc.bytes_accepts_iff",
    "Verif.Grpc.bytes_long_prefix_truncated"
   ],
   "note": ""
  },
  {
   "property": "C07",
   "status": "proved",
   "theorems": [
    "Verif.Grpc.skip_accepts_iff",
    "Verif.Grpc.skip_in_bounds",
    "Verif.Grpc.skip_field_accepts",
    "Verif.Grpc.skip_refuses_wrong_end",
    "Verif.Grpc.skip_depth_refused"
   ],
   "note": ""
  },
  {
   "property": "C47",
   "status": "proved",
   "theorems": [
    "Verif.Grpc.group_body",
    "Verif.Grpc.group_never_panics"
   ],
   "note": ""
  },
  {
   "property": "C08",
   "status": "partial",
   "theorems": [
    "Verif.Grpc.encoder_faithful_partial",
    "Verif.Grpc.encoder_top_partial",
    "Verif.Grpc.encoder_uniform_map_partial",
    "Verif.Grpc.encoder_size_exact_partial",
    "Verif.Grpc.wire_unambiguous",
    "Verif.Grpc.encoder_unsupported",
    "Verif.Grpc.encoder_faithful_fails",
    "Verif.Grpc.encoder_nested_map_fails",
    "Verif.Grpc.encoder_empty_map_fails"
   ],
   "note": "The full claim is false of the code: maps with entries of different sizes do not parse (encoder_faithful_fails), a nested map of two entries makes the enclosing length too short (encoder_nested_map_fails) and empty maps divide by zero (encoder_empty_map_fails). Proved for values whose maps have exactly one entry, and for top-level maps whose entries all have the same size."
  },
  {
   "property": "C13",
   "status": "partial",
   "theorems": [
    "Verif.Mmm.use_after_free_detected_partial",
    "Verif.Mmm.live_pointer_reads_its_value_partial",
    "Verif.Mmm.use_after_free_detected_fails"
   ],
   "note": "Proved for every history in which no zero value is stored in a managed pointer and every allocation has an API. False otherwise: End does not advance the revision of a pointer that holds the zero value (use_after_free_detected_fails). Histories with Copy: see C196."
  },
  {
   "property": "C14",
   "status": "partial",
   "theorems": [
    "Verif.Mmm.freed_at_most_once_partial",
    "Verif.Mmm.lifetime_end_frees_all_partial",
    "Verif.Mmm.disciplined_reads_partial",
    "Verif.Mmm.freed_at_most_once_fails",
    "Verif.Mmm.lifetime_end_frees_all_fails"
   ],
   "note": "At most once: proved without zero values. Exactly the live ones: proved for histories that free and move in last-in-first-out order; out-of-order frees leak (lifetime_end_frees_all_fails)."
  },
  {
   "property": "C15",
   "status": "partial",
   "theorems": [
    "Verif.Mmm.end_twice_noop_partial",
    "Verif.Mmm.end_pinned_twice_noop_partial",
    "Verif.Mmm.end_pinned_twice_noop_fails"
   ],
   "note": "Proved for lifetimes of NewLifetime in all histories whose allocations have an API, and for lifetimes of pinned pointers without zero values; with a zero value the second End panics."
  },
  {
   "property": "C09",
   "status": "proved",
   "theorems": [
    "Verif.Jrpc.string_escaped"
   ],
   "note": "unicode/utf8 is modelled from its documentation."
  },
  {
   "property": "C10",
   "status": "partial",
   "theorems": [
    "Verif.Jrpc.bytes_base64_partial",
    "Verif.Jrpc.base64_unambiguous",
    "Verif.Jrpc.bytes_base64_fails"
   ],
   "note": "Proved for every non-empty byte slice; the empty slice is written as the string null (bytes_base64_fails)."
  },
  {
   "property": "C11",
   "status": "proved",
   "theorems": [
    "Verif.Jrpc.int_round_trip",
    "Verif.Jrpc.uint_round_trip",
    "Verif.Jrpc.int_text",
    "Verif.Jrpc.int_accepts"
   ],
   "note": "A number is taken to be followed by a byte that is not part of a number, or the end."
  },
  {
   "property": "C12",
   "status": "partial",
   "theorems": [
    "Verif.Jrpc.chunking_partial",
    "Verif.Jrpc.chunking_fails",
    "Verif.Jrpc.unscan_fails"
   ],
   "note": "Proved for readers that fill the buffer when they can; false for short reads (chunking_fails) and when a number's terminator is the last byte of the buffer (unscan_fails)."
  },
  {
   "property": "C48",
   "status": "partial",
   "theorems": [
    "Verif.Jrpc.string_decoded_partial",
    "Verif.Jrpc.string_accepts",
    "Verif.Jrpc.string_round_trip",
    "Verif.Jrpc.string_decoded_fails"
   ],
   "note": "The accepted texts are characterised exactly; proved to be RFC 8259 without surrogate pairs, which decode to U+FFFD twice (string_decoded_fails)."
  },
  {
   "property": "C49",
   "status": "partial",
   "theorems": [
    "Verif.Jrpc.encoder_json_partial",
    "Verif.Jrpc.encoder_json_fails",
    "Verif.Jrpc.encoder_array_fails",
    "Verif.Jrpc.encoder_other_fails"
   ],
   "note": "Proved for values without multi-field structs, arrays, unlisted kinds, empty byte slices and non-string map keys; floats are not modelled."
  },
  {
   "property": "C50",
   "status": "partial",
   "theorems": [
    "Verif.Jrpc.codec_round_trip_partial",
    "Verif.Jrpc.repeated_key_last_wins",
    "Verif.Jrpc.nil_read_iff",
    "Verif.Jrpc.codec_round_trip_fails"
   ],
   "note": "Proved for non-empty slices and maps, non-nil pointers; false for empty ones, nil and byte slices (codec_round_trip_fails). Structs and floats are C203 and C204; the stream is taken as a list of bytes (C12 relates it to the buffer)."
  },
  {
   "property": "C51",
   "status": "partial",
   "theorems": [
    "Verif.Jrpc.bool_partial",
    "Verif.Jrpc.bool_fails"
   ],
   "note": "Proved for the two texts into a variable holding false."
  },
  {
   "property": "C16",
   "status": "proved",
   "theorems": [
    "Verif.Qnq.send_reaches_listener",
    "Verif.Qnq.send_calls_once"
   ],
   "note": "Atomic operations are sequentially consistent, as in Go's memory model."
  },
  {
   "property": "C17",
   "status": "proved",
   "theorems": [
    "Verif.Qnq.registered_exactly_once",
    "Verif.Qnq.registration_order"
   ],
   "note": ""
  },
  {
   "property": "C18",
   "status": "proved",
   "theorems": [
    "Verif.Qnq.send_result",
    "Verif.Qnq.never_crashes",
    "Verif.Qnq.chan_send_result"
   ],
   "note": ""
  },
  {
   "property": "C52",
   "status": "partial",
   "theorems": [
    "Verif.Qnq.cancelled_not_called_fails",
    "Verif.Qnq.cancelled_pair_called"
   ],
   "note": "False of the code: the listener at the head is never checked, nor the second of two adjacent cancelled ones."
  },
  {
   "property": "C53",
   "status": "proved",
   "theorems": [
    "Verif.Qnq.send_obstruction_free",
    "Verif.Qnq.register_obstruction_free"
   ],
   "note": "Handlers are taken to return."
  },
  {
   "property": "C19",
   "status": "proved",
   "theorems": [
    "Verif.Sql.ram_is_a_map"
   ],
   "note": "sync.Map is modelled from its documentation."
  },
  {
   "property": "C20",
   "status": "partial",
   "theorems": [
    "Verif.Sql.add_unique_partial",
    "Verif.Sql.add_unique_fails"
   ],
   "note": "Unique while fewer than 2^w calls have been made for a w-bit key; then the counter wraps around."
  },
  {
   "property": "C21",
   "status": "partial",
   "theorems": [
    "Verif.Sql.combinators_boolean_partial",
    "Verif.Sql.combinators_boolean_fails"
   ],
   "note": "Proved for conditions without an empty Cases, which lets everything through (combinators_boolean_fails)."
  },
  {
   "property": "C22",
   "status": "partial",
   "theorems": [
    "Verif.Sql.unsafe_delete_partial",
    "Verif.Sql.update_partial",
    "Verif.Sql.hits_iff",
    "Verif.Sql.unsafe_delete_count_fails",
    "Verif.Sql.unsafe_delete_empty_slice"
   ],
   "note": "Which records are touched, and how many, is proved for every slice with upto > 0; the reported count includes the skipped records, and an empty slice touches one record."
  },
  {
   "property": "C23",
   "status": "partial",
   "theorems": [
    "Verif.Sql.flatten_round_trip_partial",
    "Verif.Sql.flatten_round_trip_fails",
    "Verif.Sql.column_count_fails"
   ],
   "note": "Proved for types all of whose fields are exported."
  },
  {
   "property": "C24",
   "status": "partial",
   "theorems": [
    "Verif.Sql.search_sorted_partial",
    "Verif.Sql.insertion_sort_contract",
    "Verif.Sql.search_sorted_fails",
    "Verif.Sql.search_two_orders_fails"
   ],
   "note": "Proved for a single order expression (either direction) on a column of the key, for any sorting routine that meets the contract of sort.Slice (insertion sort is shown to); false for columns of the value and for two orders."
  },
  {
   "property": "C54",
   "status": "proved",
   "theorems": [
    "Verif.Sql.search_exact",
    "Verif.Sql.search_conditions"
   ],
   "note": "For searches without Slice; sort.Slice is taken to permute."
  },
  {
   "property": "C55",
   "status": "partial",
   "theorems": [
    "Verif.Sql.search_sliced_fails"
   ],
   "note": "False of the code: Search ignores the slice."
  },
  {
   "property": "C56",
   "status": "partial",
   "theorems": [
    "Verif.Sql.column_names_partial",
    "Verif.Sql.column_names_fails",
    "Verif.Sql.array_names_fails"
   ],
   "note": "Proved for at most one level of named nesting without arrays; deeper levels and nested arrays repeat the outer name."
  },
  {
   "property": "C57",
   "status": "partial",
   "theorems": [
    "Verif.Sql.concurrent_calls_atomic_partial",
    "Verif.Sql.concurrent_calls_atomic_fails"
   ],
   "note": "Proved for histories without upserts, which do not take the mutex and can be half lost (concurrent_calls_atomic_fails)."
  },
  {
   "property": "C25",
   "status": "proved",
   "theorems": [
    "Verif.Kvs.commit_applies"
   ],
   "note": ""
  },
  {
   "property": "C58",
   "status": "proved",
   "theorems": [
    "Verif.Kvs.db_commit_applies",
    "Verif.Kvs.db_commit_touches_only_batch",
    "Verif.Kvs.db_lookup"
   ],
   "note": "A Database is taken to be a map whose calls either take effect or fail."
  },
  {
   "property": "C59",
   "status": "proved",
   "theorems": [
    "Verif.Kvs.values_exact",
    "Verif.Kvs.values_prefix"
   ],
   "note": "Filters are ignored by the code and not part of the claim."
  },
  {
   "property": "C30",
   "status": "partial",
   "theorems": [
    "Verif.Sock.understood_once",
    "Verif.Sock.server_frames_partial",
    "Verif.Sock.client_frames_partial",
    "Verif.Sock.long_server_frames_lost",
    "Verif.Sock.server_frames_fails"
   ],
   "note": "Proved for payloads below 126 bytes; every longer payload is lost (long_server_frames_lost), because the extended length is never written."
  },
  {
   "property": "C31",
   "status": "partial",
   "theorems": [
    "Verif.Sock.frames_read_partial",
    "Verif.Sock.unmasked_frames_read_partial",
    "Verif.Sock.masked_recovered_iff",
    "Verif.Sock.frames_read_fails",
    "Verif.Sock.client_to_server_fails"
   ],
   "note": "Proved for unmasked frames of all sizes and for keys that read the same backwards; masked_recovered_iff says exactly when a payload survives. The key is applied in reverse order."
  },
  {
   "property": "C60",
   "status": "partial",
   "theorems": [
    "Verif.Sock.client_never_panics_partial",
    "Verif.Sock.conforming_never_panics_partial",
    "Verif.Sock.text_crashes_server",
    "Verif.Sock.server_never_panics_fails",
    "Verif.Sock.client_never_panics_fails"
   ],
   "note": "Any text frame crashes the server process (no receive channel is passed), a header announcing more than 2^48 bytes crashes a client."
  },
  {
   "property": "C61",
   "status": "partial",
   "theorems": [
    "Verif.Sock.sse_texts_partial",
    "Verif.Sock.sse_never_delivers",
    "Verif.Sock.sse_delivers_fails",
    "Verif.Sock.sse_crashes_client"
   ],
   "note": "The text format round trips; delivery panics because the client sends on a receive-only channel."
  },
  {
   "property": "C62",
   "status": "partial",
   "theorems": [
    "Verif.Sock.ping_answered_partial",
    "Verif.Sock.pong_echoes_fails",
    "Verif.Sock.fragments_fail"
   ],
   "note": "One pong per ping is proved; its payload is dropped, and fragments are not put together."
  },
  {
   "property": "C33",
   "status": "partial",
   "theorems": [
    "Verif.Arm64.encode_sound_partial",
    "Verif.Arm64.encode_fails",
    "Verif.Arm64.and_immediate_partial",
    "Verif.Arm64.and_immediate_fails"
   ],
   "note": "The fields are right for patterns that do not repeat, and wrong for repeating ones (the element size is left out of imms and the rotation is reversed)."
  },
  {
   "property": "C34",
   "status": "partial",
   "theorems": [
    "Verif.Arm64.word_correct_partial",
    "Verif.Arm64.word_injective",
    "Verif.Arm64.assemble_fetch",
    "Verif.Arm64.word_fails",
    "Verif.Arm64.word_fails_as",
    "Verif.Arm64.negative_immediate_fails"
   ],
   "note": "Proved for all operands of all mnemonics but the 13 (and AT S1E1WP) that word_fails shows wrong for every operand; negative_immediate_fails covers out-of-range immediates."
  },
  {
   "property": "C35",
   "status": "partial",
   "theorems": [
    "Verif.Amd64.call_correct_partial",
    "Verif.Amd64.program_correct_partial",
    "Verif.Amd64.call_correct_fails",
    "Verif.Amd64.adc_swaps_operands",
    "Verif.Amd64.adc_eax_is_add",
    "Verif.Amd64.add_memory_stores",
    "Verif.Amd64.allowed_calls_panic",
    "Verif.Amd64.adc_memory_writes_eight",
    "Verif.Amd64.extended_registers"
   ],
   "note": "Proved for the calls of Spec.right with all named registers and immediates; call_correct_fails shows every other call wrong. The unexported instructions are not modelled."
  },
  {
   "property": "C29",
   "status": "partial",
   "theorems": [
    "Verif.Rest.dispatch_partial",
    "Verif.Rest.dispatch_sound_partial",
    "Verif.Rest.dispatch_iff_partial",
    "Verif.Rest.dispatch_fails",
    "Verif.Rest.dispatch_fails_other_method",
    "Verif.Rest.dispatch_fails_short",
    "Verif.Rest.dispatch_fails_method_name"
   ],
   "note": "Proved when no literal of another route is preferred on the way, no parameter follows where the request ends, and no segment is a method name; false otherwise (the router never backtracks)."
  },
  {
   "property": "C32",
   "status": "partial",
   "theorems": [
    "Verif.Rest.no_error_iff",
    "Verif.Rest.status_carried_partial",
    "Verif.Rest.status_fails"
   ],
   "note": "Exactly 200, 201 and 202 yield no error; 500 loses its status and 203-299 are errors."
  },
  {
   "property": "C46",
   "status": "partial",
   "theorems": [
    "Verif.Rest.tag_parts_partial",
    "Verif.Rest.tag_method_fails",
    "Verif.Rest.tag_rules_panic",
    "Verif.Rest.tag_unclosed_rules"
   ],
   "note": "Proved for tags without a content type; a method with a content type reads as GET."
  },
  {
   "property": "C41",
   "status": "partial",
   "theorems": [
    "Verif.Rest.arguments_bound_partial",
    "Verif.Rest.too_few_rules_refused",
    "Verif.Rest.misfit_refused_partial",
    "Verif.Rest.argument_zero_panics",
    "Verif.Rest.odd_formats_panic"
   ],
   "note": "Proved for tags of named formats in path and query, with or without argument rules; argument 0, negative arguments and empty formats crash the process."
  },
  {
   "property": "C42",
   "status": "partial",
   "theorems": [
    "Verif.Rest.destructured_partial",
    "Verif.Rest.destructured_fails",
    "Verif.Rest.destructured_index_ignored"
   ],
   "note": "Names, types and number are right for all structs; the index is proved right at depths 1, 2, 4, ..., 256 and is wrong from depth 3 on otherwise (append to a shared slice)."
  },
  {
   "property": "C63",
   "status": "partial",
   "theorems": [
    "Verif.Rest.not_found_path_partial",
    "Verif.Rest.not_found_path_fails"
   ],
   "note": "Proved when exactly the first segment is known; false in general, since the path is consumed on the way."
  },
  {
   "property": "C64",
   "status": "partial",
   "theorems": [
    "Verif.Rest.route_path_partial",
    "Verif.Rest.route_path_fails_equals"
   ],
   "note": "Proved for paths without an equals sign in a literal; route_path_fails_equals shows that such a sign breaks the pattern."
  },
  {
   "property": "C65",
   "status": "partial",
   "theorems": [
    "Verif.Rest.error_travels_partial",
    "Verif.Rest.handle_status",
    "Verif.Rest.handle_scenario",
    "Verif.Rest.error_travels_fails"
   ],
   "note": "Proved for statuses 300-999 but 304, 404, 500, 411, 413, 414, 429 and 431, each of which loses its status or text (or, on DELETE, the whole error)."
  },
  {
   "property": "C66",
   "status": "partial",
   "theorems": [
    "Verif.Rest.names_field_partial",
    "Verif.Rest.tagged_field_reads",
    "Verif.Rest.names_field_fails",
    "Verif.Rest.names_field_panics"
   ],
   "note": "Proved for field names to any depth; a field found by its tag reads [k,k] where k is the position of the field, not of the argument."
  },
  {
   "property": "C26",
   "status": "partial",
   "theorems": [
    "Verif.Xyz.round_trip_partial",
    "Verif.Xyz.round_trip_string_partial",
    "Verif.Xyz.round_trip_fails",
    "Verif.Xyz.uintptr_ignores_names",
    "Verif.Xyz.cases_distinct_partial",
    "Verif.Xyz.cases_collide",
    "Verif.Xyz.unknown_refused_partial",
    "Verif.Xyz.unknown_fails",
    "Verif.Xyz.json_round_trip_partial",
    "Verif.Xyz.json_fails"
   ],
   "note": "Proved for booleans and integers of every width when names do not look like numbers, and for strings without spaces; false for strings with spaces, unknown texts that begin with a number, any text for booleans, and unnamed numbers in JSON. Floats are not modelled."
  },
  {
   "property": "C27",
   "status": "proved",
   "theorems": [
    "Verif.Xyz.never_wrong_case"
   ],
   "note": ""
  },
  {
   "property": "C28",
   "status": "proved",
   "theorems": [
    "Verif.Xyz.tuple_round_trip",
    "Verif.Xyz.tuple_components",
    "Verif.Xyz.tuple_short_refused",
    "Verif.Xyz.tuple_long_accepted",
    "Verif.Xyz.expand_leaves"
   ],
   "note": "Longer arrays are accepted and the rest dropped (tuple_long_accepted)."
  },
  {
   "property": "C67",
   "status": "partial",
   "theorems": [
    "Verif.Xyz.agree_partial",
    "Verif.Xyz.alone_settles",
    "Verif.Xyz.agree_fails"
   ],
   "note": "Proved once one goroutine has finished asking before the others start; two that ask first at the same time get different accessors."
  },
  {
   "property": "C68",
   "status": "partial",
   "theorems": [
    "Verif.Xyz.json_names_partial",
    "Verif.Xyz.json_const_partial",
    "Verif.Xyz.json_merged_partial",
    "Verif.Xyz.json_kinds_partial",
    "Verif.Xyz.json_null_partial",
    "Verif.Xyz.json_texts_partial",
    "Verif.Xyz.json_fails_first",
    "Verif.Xyz.first_takes_all",
    "Verif.Xyz.text_first_refuses_objects",
    "Verif.Xyz.void_name_panics",
    "Verif.Xyz.string_leaks"
   ],
   "note": "Proved for each documented scheme by itself and the documented mixture of constants; a case tagged ?key=val takes every object, so two of them cannot be told apart."
  },
  {
   "property": "C69",
   "status": "proved",
   "theorems": [
    "Verif.Xyz.pointers_found",
    "Verif.Xyz.store_in_bounds"
   ],
   "note": "For array storage; numbers never take a value at all (number_forgets) and slices and structs panic (slice_and_struct_panic)."
  },
  {
   "property": "C70",
   "status": "proved",
   "theorems": [
    "Verif.Xyz.union_text"
   ],
   "note": "The texts of the cases are taken to differ."
  },
  {
   "property": "C71",
   "status": "proved",
   "theorems": [
    "Verif.Xyz.duplex_values",
    "Verif.Xyz.duplex_empty_panics"
   ],
   "note": "The number type is arbitrary with its addition and subtraction; the empty number panics."
  },
  {
   "property": "C72",
   "status": "partial",
   "theorems": [
    "Verif.Xyz.maybe_round_trip",
    "Verif.Xyz.maybe_null",
    "Verif.Xyz.maybe_error_keeps",
    "Verif.Xyz.maybe_apart_partial",
    "Verif.Xyz.maybe_apart_fails",
    "Verif.Xyz.maybe_null_value"
   ],
   "note": "Proved but for copies, which share their map, and values that are themselves null."
  },
  {
   "property": "C36",
   "status": "proved",
   "theorems": [
    "Verif.Abi.internal_accepts_iff",
    "Verif.Abi.internal_registers",
    "Verif.Abi.internal_location",
    "Verif.Abi.internal_stack_disjoint",
    "Verif.Abi.go_values_have_alignment",
    "Verif.Abi.empty_struct_loses_the_stack"
   ],
   "note": "For all signatures; slots are disjoint for values with an alignment, which all values of Go types have (an empty Values.Struct, which no Go type gives, resets the stack). Alignment and padding are C81."
  },
  {
   "property": "C43",
   "status": "partial",
   "theorems": [
    "Verif.Vm.decode_new",
    "Verif.Vm.new_decode",
    "Verif.Vm.new_large_fails"
   ],
   "note": "Proved for operands below 32; compile writes the numbers of callbacks unmasked up to 254."
  },
  {
   "property": "C73",
   "status": "partial",
   "theorems": [
    "Verif.Abi.value_panics_iff",
    "Verif.Abi.value_size",
    "Verif.Abi.value_size_fails",
    "Verif.Abi.value_size_partial",
    "Verif.Abi.value_align_partial"
   ],
   "note": "Exactly characterised: the size is that without padding, and a type panics exactly if it has an array that takes up memory."
  },
  {
   "property": "C74",
   "status": "partial",
   "theorems": [
    "Verif.Abi.equals_iff",
    "Verif.Abi.equals_refl_fails",
    "Verif.Abi.equals_panics"
   ],
   "note": "Exactly characterised: true only for one hardware place or one place by reference; several places are never equal."
  },
  {
   "property": "C76",
   "status": "proved",
   "theorems": [
    "Verif.Abi.cgo_iff"
   ],
   "note": ""
  },
  {
   "property": "C77",
   "status": "partial",
   "theorems": [
    "Verif.Abi.sysv_singles_iff",
    "Verif.Abi.sysv_doubles_partial",
    "Verif.Abi.sysv_result_partial",
    "Verif.Abi.sysv_distinct_fails",
    "Verif.Abi.sysv_last_register_fails",
    "Verif.Abi.sysv_big_structs_fails",
    "Verif.Abi.sysv_packed_fails",
    "Verif.Abi.sysv_result_fails",
    "Verif.Abi.aapcs_singles_partial",
    "Verif.Abi.aapcs_floats_partial",
    "Verif.Abi.aapcs_reference_partial",
    "Verif.Abi.aapcs_big_struct_fails",
    "Verif.Abi.aapcs_small_struct_fails",
    "Verif.Abi.aapcs_packed_struct_fails"
   ],
   "note": "arm64 is right for all functions of single values, for structs of few floats and for big structs of up to three fields; small mixed structs are passed nowhere, big ones of four fields on the stack. amd64 is right for single values exactly if each integer has as many floats before it as integers (sysv_singles_iff)."
  },
  {
   "property": "C78",
   "status": "partial",
   "theorems": [
    "Verif.Abi.pins_are_the_pointers_partial",
    "Verif.Abi.pins_on_stack_fails"
   ],
   "note": "Proved for arguments in registers; for structs on the stack it panics, and pointers there are not pinned."
  },
  {
   "property": "C79",
   "status": "partial",
   "theorems": [
    "Verif.Vm.compiled_call_partial",
    "Verif.Vm.run_straight",
    "Verif.Vm.usesFast_sound",
    "Verif.Vm.fast_variant_drops_arguments_fails",
    "Verif.Vm.slices_panic",
    "Verif.Vm.amd64_registers_fails"
   ],
   "note": "Proved for arguments of one or two registers on the full machine; when no move is needed the fast variant is chosen, which drops all registers but three."
  },
  {
   "property": "C80",
   "status": "partial",
   "theorems": [
    "Verif.Vm.math_meaning",
    "Verif.Vm.jump_fails",
    "Verif.Vm.math_docs_fails"
   ],
   "note": "Arithmetic is proved to be 64-bit arithmetic of $normal and $length; the documented operand is $assert, comparisons are the other way round, and a jump skips its target. Floating point is not modelled."
  },
  {
   "property": "C81",
   "status": "partial",
   "theorems": [
    "Verif.Abi.internal_stack_aligned_partial",
    "Verif.Abi.internal_stack_aligned_fails",
    "Verif.Abi.internal_stack_overlap_fails"
   ],
   "note": "Proved for values of whole words; false after a byte, and for structs with padding."
  },
  {
   "property": "C40",
   "status": "partial",
   "theorems": [
    "Verif.Bit.write_short",
    "Verif.Bit.write_partial",
    "Verif.Bit.long_bytes_lost",
    "Verif.Bit.long_string_panics",
    "Verif.Bit.write_fails",
    "Verif.Bit.stream_partial",
    "Verif.Bit.stream_error",
    "Verif.Bit.flush_forgets",
    "Verif.Bit.stream_fails"
   ],
   "note": "Proved for up to sixteen bytes; for every longer text WriteBytes and Flush lose everything and WriteString panics."
  },
  {
   "property": "C45",
   "status": "partial",
   "theorems": [
    "Verif.Via.accepted_size",
    "Verif.Via.accepts_all",
    "Verif.Via.accepted_iff_partial",
    "Verif.Via.accepted_fails",
    "Verif.Via.arrays_accepted"
   ],
   "note": "Exact for types without arrays; arrays of pointers are accepted."
  },
  {
   "property": "C82",
   "status": "proved",
   "theorems": [
    "Verif.Via.cached_newCache",
    "Verif.Via.cached_other",
    "Verif.Via.internal_new",
    "Verif.Via.proxy_reused",
    "Verif.Via.proxy_replaced"
   ],
   "note": ""
  },
  {
   "property": "C44",
   "status": "partial",
   "theorems": [
    "Verif.Cmdl.dispatch_iff",
    "Verif.Cmdl.score_spec",
    "Verif.Cmdl.dispatch_none",
    "Verif.Cmdl.literals_fail",
    "Verif.Cmdl.placeholders_preferred",
    "Verif.Cmdl.flags_are_words"
   ],
   "note": "The choice is exactly characterised; the chosen command need not match in all its words, placeholders without a word count, and flags after a last word have to be typed."
  },
  {
   "property": "C83",
   "status": "partial",
   "theorems": [
    "Verif.Cmdl.scan_partial",
    "Verif.Cmdl.numbers_exact",
    "Verif.Cmdl.numbers_count_from_here"
   ],
   "note": "Proved if no %v precedes a numbered placeholder; numbers count from the last %v."
  },
  {
   "property": "C84",
   "status": "partial",
   "theorems": [
    "Verif.Cmdl.client_partial",
    "Verif.Cmdl.client_section",
    "Verif.Cmdl.client_fails"
   ],
   "note": "Proved for strings, lists of strings and values printed by fmt, if numbered placeholders come first. Option structs are C86."
  },
  {
   "property": "C85",
   "status": "partial",
   "theorems": [
    "Verif.Cmdl.round_trip_partial",
    "Verif.Cmdl.round_trip_numbered_partial",
    "Verif.Cmdl.alone_found",
    "Verif.Cmdl.numbered_numbers_refused",
    "Verif.Cmdl.empty_shows_help",
    "Verif.Cmdl.slices_refused"
   ],
   "note": "Proved for words and %v in any combination with strings, fmt values and a variadic list, and for numbered strings; the text codec of fmt is a parameter."
  },
  {
   "property": "C86",
   "status": "partial",
   "theorems": [
    "Verif.Cmdl.flags_partial",
    "Verif.Cmdl.flags_round_trip_partial",
    "Verif.Cmdl.value_round_trip_partial",
    "Verif.Cmdl.zero_omitted",
    "Verif.Cmdl.rounds_fuel",
    "Verif.Cmdl.values_stop",
    "Verif.Cmdl.values_are_options",
    "Verif.Cmdl.next_word_refused",
    "Verif.Cmdl.inverted_flips"
   ],
   "note": "Proved for structs of plain flags, and of one option with a value; options with values stop the reading and are not used up, options whose value is the next word are never found, inverted flags arrive inverted."
  },
  {
   "property": "C39",
   "status": "proved",
   "theorems": [
    "Verif.Xray.fifo",
    "Verif.Xray.typed",
    "Verif.Xray.add_never_blocks",
    "Verif.Xray.look_never_waits"
   ],
   "note": ""
  },
  {
   "property": "C87",
   "status": "proved",
   "theorems": [
    "Verif.Xray.writer_spec"
   ],
   "note": ""
  },
  {
   "property": "C37",
   "status": "proved",
   "theorems": [
    "Verif.Wasm.squeeze_results",
    "Verif.Wasm.squeeze_args"
   ],
   "note": ""
  },
  {
   "property": "C75",
   "status": "partial",
   "theorems": [
    "Verif.Wasm.decode_words",
    "Verif.Wasm.words_declared",
    "Verif.Wasm.encode_words_partial",
    "Verif.Wasm.encode_words_fails",
    "Verif.Wasm.round_trip",
    "Verif.Wasm.string_param_fails"
   ],
   "note": "Reading and the round trip are proved for all booleans and numbers; int8 and int16 are written without clearing or sign-extending their word; strings are declared but cannot be read."
  },
  {
   "property": "C88",
   "status": "partial",
   "theorems": [
    "Verif.Wasm.squeeze_assigned_partial",
    "Verif.Wasm.squeeze_assigned_fails",
    "Verif.Wasm.default_results_partial",
    "Verif.Wasm.default_results_fails",
    "Verif.Wasm.default_args_partial",
    "Verif.Wasm.default_args_fails",
    "Verif.Wasm.default_slice_fails"
   ],
   "note": "Proved for three or more registers; with fewer, arguments may be dropped. The default assignment counts registers where bytes are used."
  },
  {
   "property": "C89",
   "status": "partial",
   "theorems": [
    "Verif.Wasm.export_call_partial",
    "Verif.Wasm.export_error_dropped",
    "Verif.Wasm.export_error_panics",
    "Verif.Wasm.export_struct_fails",
    "Verif.Wasm.export_many_fails"
   ],
   "note": "Proved for functions of booleans and numbers with one result of one word."
  },
  {
   "property": "C90",
   "status": "proved",
   "theorems": [
    "Verif.Wasm.symbols",
    "Verif.Wasm.symbols_missing",
    "Verif.Wasm.dlopen_missing"
   ],
   "note": "Names are taken to be unique, and fewer than 2^64 libraries."
  },
  {
   "property": "C91",
   "status": "partial",
   "theorems": [
    "Verif.Wasm.run_exact",
    "Verif.Wasm.run_partial",
    "Verif.Wasm.run_compiled_fails",
    "Verif.Wasm.run_again_fails"
   ],
   "note": "The outcome of every history is characterised exactly; compiling in advance, or running twice without APIs, does not work. Wazero's refusal of foreign modules and of duplicate host modules is part of the model."
  },
  {
   "property": "C92",
   "status": "partial",
   "theorems": [
    "Verif.Wasm.config_partial",
    "Verif.Wasm.environment",
    "Verif.Wasm.memory_partial",
    "Verif.Wasm.memory_fails",
    "Verif.Wasm.config_fails"
   ],
   "note": "The two clocks are swapped in the tests for nil; a memory limit below a page leaves no memory."
  },
  {
   "property": "C38",
   "status": "partial",
   "theorems": [
    "Verif.Ffi.read_partial",
    "Verif.Ffi.number_restored",
    "Verif.Ffi.read_short",
    "Verif.Ffi.read_complex_fails",
    "Verif.Ffi.read_bool_fails",
    "Verif.Ffi.readAt_partial",
    "Verif.Ffi.readAt_many"
   ],
   "note": "Proved for types without booleans and complex64 numbers and reads of at most two elements; from the third element on they overwrite each other."
  },
  {
   "property": "C93",
   "status": "proved",
   "theorems": [
    "Verif.Ffi.handles_distinct",
    "Verif.Ffi.handles_get",
    "Verif.Ffi.handles_only"
   ],
   "note": ""
  },
  {
   "property": "C94",
   "status": "partial",
   "theorems": [
    "Verif.Ffi.structure_partial",
    "Verif.Ffi.structure_mismatch",
    "Verif.Ffi.structure_iface_fails"
   ],
   "note": "Proved for variables of scalar kinds and strings; what is encoded into an interface cannot be decoded."
  },
  {
   "property": "C95",
   "status": "partial",
   "theorems": [
    "Verif.Ffi.string_decoded",
    "Verif.Ffi.call_partial",
    "Verif.Ffi.call_nothing",
    "Verif.Ffi.call_number_fails",
    "Verif.Ffi.call_args_fails",
    "Verif.Ffi.call_exact"
   ],
   "note": "The calls that work are characterised exactly: only functions without parameters that return nothing or one string."
  },
  {
   "property": "C96",
   "status": "partial",
   "theorems": [
    "Verif.Call.tag_round_trip",
    "Verif.Call.tag_garbage_fails",
    "Verif.Call.documented_capacity_fails",
    "Verif.Call.documented_sizeof_fails",
    "Verif.Call.documented_order_fails",
    "Verif.Call.documented_example_fails"
   ],
   "note": "Parts of the documented notation are refused and garbage at the end is accepted."
  },
  {
   "property": "C97",
   "status": "partial",
   "theorems": [
    "Verif.Call.resolve_exact",
    "Verif.Call.preferred_partial",
    "Verif.Call.preference_fails",
    "Verif.Call.libraries_fails"
   ],
   "note": "The symbol is characterised exactly: the last name in the last library, found or not."
  },
  {
   "property": "C98",
   "status": "partial",
   "theorems": [
    "Verif.Call.sendValue_arrives",
    "Verif.Call.arrives_fits",
    "Verif.Call.tags_numbered",
    "Verif.Call.call_arguments_partial",
    "Verif.Call.call_result_partial",
    "Verif.Call.call_float_result_partial",
    "Verif.Call.bool_argument_fails",
    "Verif.Call.named_result_fails",
    "Verif.Call.dropped_result_fails"
   ],
   "note": "Proved for all integer types and floats, each passed for any of the other types, and for their results; bool arguments, named result types and dropped results panic. Conversions between floats and integers are a parameter."
  },
  {
   "property": "C99",
   "status": "partial",
   "theorems": [
    "Verif.Call.sendValue_arrives",
    "Verif.Call.call_arguments_partial",
    "Verif.Call.void_pointer_result",
    "Verif.Call.text_and_slice_only",
    "Verif.Call.opaque_fails",
    "Verif.Call.text_result_fails",
    "Verif.Call.pointer_result_fails"
   ],
   "note": "Arguments to void and char pointers and results of type void pointer are proved; opaque types cannot be passed and texts and typed pointers never come back."
  },
  {
   "property": "C100",
   "status": "partial",
   "theorems": [
    "Verif.Call.inferred_length",
    "Verif.Call.inferred_only_lengths",
    "Verif.Call.after_inferred_fails"
   ],
   "note": "Exact for lengths; nothing else can be inferred, and arguments after an inferred one are miscounted."
  },
  {
   "property": "C101",
   "status": "partial",
   "theorems": [
    "Verif.Call.error_result_fails",
    "Verif.Call.value_and_error_fails"
   ],
   "note": "Refuted: assertions are never checked."
  },
  {
   "property": "C102",
   "status": "partial",
   "theorems": [
    "Verif.Call.callback_partial",
    "Verif.Call.callback_int_fails",
    "Verif.Call.callback_unread_fails",
    "Verif.Call.ffi_result_fails"
   ],
   "note": "Proved for booleans, sized integers, floats and pointers in any number; int, uint, strings, functions and structs do not work."
  },
  {
   "property": "C103",
   "status": "partial",
   "theorems": [
    "Verif.Call.callbacks_own_partial",
    "Verif.Call.callbacks_race_fails"
   ],
   "note": "Proved for callbacks set one after the other; refuted for goroutines."
  },
  {
   "property": "C104",
   "status": "partial",
   "theorems": [
    "Verif.Jrpc.int_reject_fails",
    "Verif.Jrpc.int_text"
   ],
   "note": "Refuted."
  },
  {
   "property": "C105",
   "status": "proved",
   "theorems": [
    "Verif.Sql.add_never_overwrites",
    "Verif.Sql.add_stores"
   ],
   "note": ""
  },
  {
   "property": "C106",
   "status": "partial",
   "theorems": [
    "Verif.Kvs.kvs_is_a_map_partial",
    "Verif.Kvs.lookup_present_partial",
    "Verif.Kvs.kvs_is_a_map_fails",
    "Verif.Kvs.lookup_absent_panics"
   ],
   "note": "Reading an absent key of an in-memory map panics."
  },
  {
   "property": "C107",
   "status": "partial",
   "theorems": [
    "Verif.Xyz.read_partial",
    "Verif.Xyz.read_fails",
    "Verif.Xyz.number_forgets",
    "Verif.Xyz.slice_and_struct_panic",
    "Verif.Xyz.nil_cannot_be_read",
    "Verif.Xyz.text_int_partial",
    "Verif.Xyz.text_string_partial",
    "Verif.Xyz.text_fails"
   ],
   "note": "Proved for interface, array and pointer storage. Number storage forgets the value, slice and struct storage panic, text storage is proved for integers and single words."
  },
  {
   "property": "C108",
   "status": "proved",
   "theorems": [
    "Verif.Arm64.encode_accepts_iff"
   ],
   "note": ""
  },
  {
   "property": "C109",
   "status": "partial",
   "theorems": [
    "Verif.Xray.get_never_waits_partial",
    "Verif.Xray.stuck_forever",
    "Verif.Xray.get_fails",
    "Verif.Xray.get_panics",
    "Verif.Xray.get_alone"
   ],
   "note": "Two goroutines that get the last value at once block each other, and everyone who adds, for ever; without a context it panics."
  },
  {
   "property": "C110",
   "status": "partial",
   "theorems": [
    "Verif.Xyz.unknown_text_kept",
    "Verif.Xyz.unknown_text_fails"
   ],
   "note": "Refuted: unknown texts are ignored."
  },
  {
   "property": "C111",
   "status": "partial",
   "theorems": [
    "Verif.Abi.zero_fails"
   ],
   "note": "Refuted: every function with arguments or results panics."
  },
  {
   "property": "C112",
   "status": "proved",
   "theorems": [
    "Verif.Vm.push_little_endian"
   ],
   "note": ""
  },
  {
   "property": "C113",
   "status": "partial",
   "theorems": [
    "Verif.Via.tryCache_value",
    "Verif.Via.tryCache_fails"
   ],
   "note": "TryCache reads the memory behind its variable."
  },
  {
   "property": "C114",
   "status": "partial",
   "theorems": [
    "Verif.Xray.reader_partial",
    "Verif.Xray.reader_off",
    "Verif.Xray.reader_fails"
   ],
   "note": "A reader loses the bytes before an error if x-ray is on."
  },
  {
   "property": "C115",
   "status": "proved",
   "theorems": [
    "Verif.Wasm.results_read_back",
    "Verif.Wasm.args_written",
    "Verif.Wasm.mask_spec",
    "Verif.Wasm.jump_spec"
   ],
   "note": ""
  },
  {
   "property": "C116",
   "status": "partial",
   "theorems": [
    "Verif.Wasm.import_partial",
    "Verif.Wasm.import_fails"
   ],
   "note": "Proved for APIs the host has; a missing API traps the guest."
  },
  {
   "property": "C117",
   "status": "partial",
   "theorems": [
    "Verif.Ffi.free_fails",
    "Verif.Ffi.nothing_released"
   ],
   "note": "Refuted: freeing has no effect."
  },
  {
   "property": "C118",
   "status": "proved",
   "theorems": [
    "Verif.Call.tag_round_trip",
    "Verif.Call.tag_ends",
    "Verif.Call.tag_unambiguous"
   ],
   "note": ""
  },
  {
   "property": "C119",
   "status": "proved",
   "theorems": [
    "Verif.Rest.Serve.call_is_authorized",
    "Verif.Rest.Serve.refused_is_alone",
    "Verif.Rest.Serve.unauthorized_is_alone",
    "Verif.Rest.Serve.no_authenticator",
    "Verif.Rest.Serve.accepted_is_called"
   ],
   "note": "For results that are not streams; the events before the result are the same for streams."
  },
  {
   "property": "C120",
   "status": "partial",
   "theorems": [
    "Verif.Rest.Serve.operations_authenticate_partial",
    "Verif.Rest.Serve.pages_fails",
    "Verif.Rest.Serve.pages_fails_form",
    "Verif.Rest.Serve.pages_fails_examples",
    "Verif.Rest.Serve.preflight_open"
   ],
   "note": "Operations authenticate; forms of paths without GET, examples and OPTIONS are open to everyone."
  },
  {
   "property": "C121",
   "status": "partial",
   "theorems": [
    "Verif.Rest.Serve.arguments_arrive_partial",
    "Verif.Rest.Serve.putPost_travels",
    "Verif.Rest.Serve.arguments_fails_empty_path_string",
    "Verif.Rest.Serve.arguments_fails_slash",
    "Verif.Rest.Serve.arguments_fails_rest_of_path",
    "Verif.Rest.Serve.arguments_fails_method_name",
    "Verif.Rest.Serve.arguments_fails_text_in_path",
    "Verif.Rest.Serve.arguments_fails_text_string",
    "Verif.Rest.Serve.arguments_fails_json_number",
    "Verif.Rest.Serve.arguments_fails_pointer_query",
    "Verif.Rest.Serve.arguments_fails_pointer_body",
    "Verif.Rest.Serve.arguments_fails_bodiless",
    "Verif.Rest.Serve.arguments_fails_two_in_body",
    "Verif.Rest.Serve.arguments_fails_slices",
    "Verif.Rest.Serve.arguments_fails_slice",
    "Verif.Rest.Serve.arguments_fails_path_strings",
    "Verif.Rest.Serve.arguments_fails_query_slices"
   ],
   "note": "Proved for scalars in path and query and one or several named body arguments, through client, URL escaping, router and handler; false for slices in queries, pointers, slashes, empty strings, unnamed body arguments."
  },
  {
   "property": "C122",
   "status": "partial",
   "theorems": [
    "Verif.Rest.Serve.result_arrives_partial",
    "Verif.Rest.Serve.results_arrive_partial",
    "Verif.Rest.Serve.no_results_arrive",
    "Verif.Rest.Serve.status_result_read_as_text"
   ],
   "note": "Proved for results without a status of their own; with one, the linked function reads the result as plain text."
  },
  {
   "property": "C123",
   "status": "partial",
   "theorems": [
    "Verif.Rest.Serve.arguments_no_panic_partial",
    "Verif.Rest.Serve.form_panics",
    "Verif.Rest.Serve.no_panic_fails",
    "Verif.Rest.Serve.arguments_fails_pointer_query"
   ],
   "note": "Proved for operations without pointers and content types with a decoder; multipart/form-data and application/json+schema call a nil function."
  },
  {
   "property": "C124",
   "status": "partial",
   "theorems": [
    "Verif.Rest.Serve.first_supported",
    "Verif.Rest.Serve.result_written",
    "Verif.Rest.Serve.unsupported_written",
    "Verif.Rest.Serve.unsupported_fails",
    "Verif.Rest.Serve.quality_fails",
    "Verif.Rest.Serve.any_type_written"
   ],
   "note": "The first supported type wins; qualities and wildcards are ignored, and 415 is answered after the call."
  },
  {
   "property": "C125",
   "status": "partial",
   "theorems": [
    "Verif.Rest.Serve.handlers_partial",
    "Verif.Rest.Serve.options_order_fails",
    "Verif.Rest.Serve.order_fails",
    "Verif.Rest.Serve.preflight_fails",
    "Verif.Rest.Serve.paths_order_fails"
   ],
   "note": "Proved except OPTIONS beside GET and paths that differ in parameter names; those depend on map order."
  },
  {
   "property": "C126",
   "status": "partial",
   "theorems": [
    "Verif.Rest.Serve.iterator_events",
    "Verif.Rest.Serve.iterator_array",
    "Verif.Rest.Serve.pairs_collected_partial",
    "Verif.Rest.Serve.pairs_fails",
    "Verif.Rest.Serve.channel_sends_one",
    "Verif.Rest.Serve.channel_fails",
    "Verif.Rest.Serve.empty_channel_status",
    "Verif.Rest.Serve.events_fails",
    "Verif.Rest.Serve.stream_refused"
   ],
   "note": "Iterators of single values are proved; channels send one value, pairs with equal keys are lost, errors are written into the stream."
  },
  {
   "property": "C127",
   "status": "partial",
   "theorems": [
    "Verif.Rest.Serve.status_loses_type",
    "Verif.Rest.Serve.status_zero_panics",
    "Verif.Rest.Serve.reader_type_replaced",
    "Verif.Rest.Serve.status_type_fails",
    "Verif.Rest.Serve.result_written"
   ],
   "note": "Refuted: a status is sent before the content type is set, a reader's own type is replaced."
  },
  {
   "property": "C128",
   "status": "partial",
   "theorems": [
    "Verif.Rest.Serve.last_function_wins",
    "Verif.Rest.Serve.duplicates_fails"
   ],
   "note": "The last function with a method and path answers; duplicates are noted and never reported."
  },
  {
   "property": "C129",
   "status": "partial",
   "theorems": [
    "Verif.Rest.Serve.decimals_read_partial",
    "Verif.Rest.Serve.decimals_fails",
    "Verif.Rest.Serve.decimals_exact",
    "Verif.Rest.Serve.based_exact",
    "Verif.Rest.Serve.octal_exact",
    "Verif.Rest.Serve.read_begins",
    "Verif.Rest.Serve.zero_printed"
   ],
   "note": "Every decimal is read; texts like 12abc and 010 are accepted."
  },
  {
   "property": "C130",
   "status": "partial",
   "theorems": [
    "Verif.Rest.Serve.parameter_formatted_partial",
    "Verif.Rest.Serve.remainder_never_used"
   ],
   "note": "remainder_format is never used, for no path."
  },
  {
   "property": "C131",
   "status": "partial",
   "theorems": [
    "Verif.Rest.Serve.redacted_partial",
    "Verif.Rest.Serve.redacted_fails",
    "Verif.Rest.Serve.error_written"
   ],
   "note": "Headers of the error are written before Redact."
  },
  {
   "property": "C132",
   "status": "partial",
   "theorems": [
    "Verif.Rest.Serve.headers_read_only_nil"
   ],
   "note": "Refuted: only nil pointers are offered the headers."
  },
  {
   "property": "C133",
   "status": "partial",
   "theorems": [
    "Verif.Api.generic_partial",
    "Verif.Api.any_partial",
    "Verif.Api.any_panics",
    "Verif.Api.any_error_fails",
    "Verif.Api.any_nil_result_fails",
    "Verif.Api.own_error_type_fails"
   ],
   "note": "Proved for func(ctx, []reflect.Value) and errors declared as error; over []any a nil list or a nil result panics."
  },
  {
   "property": "C134",
   "status": "partial",
   "theorems": [
    "Verif.Api.call_partial",
    "Verif.Api.call_nil",
    "Verif.Api.in_params",
    "Verif.Api.call_own_error_type_fails",
    "Verif.Api.call_variadic_fails"
   ],
   "note": "Proved for errors declared as error and functions that are not variadic; otherwise refuted."
  },
  {
   "property": "C135",
   "status": "partial",
   "theorems": [
    "Verif.Api.wrap_partial",
    "Verif.Api.wrap_fails",
    "Verif.Api.wrap_variadic_fails"
   ],
   "note": "Proved up to results beside an error, which are lost; variadic arguments are nested."
  },
  {
   "property": "C136",
   "status": "partial",
   "theorems": [
    "Verif.Api.typed_partial",
    "Verif.Api.wrong_type",
    "Verif.Api.typed_fails"
   ],
   "note": "Proved unless the type of the function is one of those Make takes for generic."
  },
  {
   "property": "C137",
   "status": "partial",
   "theorems": [
    "Verif.Api.makeError_partial",
    "Verif.Api.makeError_own_error_type_fails",
    "Verif.Api.makeError_generic_fails"
   ],
   "note": "Proved for errors declared as error, except the generic type over any."
  },
  {
   "property": "C138",
   "status": "partial",
   "theorems": [
    "Verif.Api.return_partial",
    "Verif.Api.return_short_fails"
   ],
   "note": "Proved for nil results and for those that lack at most the error."
  },
  {
   "property": "C139",
   "status": "partial",
   "theorems": [
    "Verif.Api.stub_partial",
    "Verif.Api.stub_own_error_type_fails"
   ],
   "note": "Proved for errors declared as error and function types Make does not take for generic."
  },
  {
   "property": "C140",
   "status": "proved",
   "theorems": [
    "Verif.Api.iter_complete",
    "Verif.Api.iter_order",
    "Verif.Api.iter_stops"
   ],
   "note": "Field names are distinct, as in Go unless they are blank."
  },
  {
   "property": "C141",
   "status": "partial",
   "theorems": [
    "Verif.Api.path_partial",
    "Verif.Api.path_thin_partial",
    "Verif.Api.path_fails",
    "Verif.Api.path_fails_other"
   ],
   "note": "Proved for three levels of namespaces, and for thin ones of any depth; at the fourth level siblings overwrite each other's path."
  },
  {
   "property": "C142",
   "status": "partial",
   "theorems": [
    "Verif.Api.root_partial",
    "Verif.Api.iter_root",
    "Verif.Api.scenario_partial",
    "Verif.Api.root_fails",
    "Verif.Api.scenario_fails"
   ],
   "note": "The root is the structure of the function's own namespace, so both parts fail for functions in namespaces."
  },
  {
   "property": "C143",
   "status": "proved",
   "theorems": [
    "Verif.Api.documentation",
    "Verif.Api.lines_exist"
   ],
   "note": "For tags with a newline."
  },
  {
   "property": "C144",
   "status": "partial",
   "theorems": [
    "Verif.Api.scenario_test_partial",
    "Verif.Api.scenario_test_sound",
    "Verif.Api.scenario_test_fails"
   ],
   "note": "Joined errors are not looked into."
  },
  {
   "property": "C145",
   "status": "partial",
   "theorems": [
    "Verif.Data.validate_nil_partial",
    "Verif.Data.validate_errors_partial",
    "Verif.Data.validate_unexported_fails"
   ],
   "note": "Proved for structs whose fields are all exported; with one that is not, any failed constraint panics."
  },
  {
   "property": "C146",
   "status": "partial",
   "theorems": [
    "Verif.Data.validate_nested_fails",
    "Verif.Data.validate_foreign",
    "Verif.Data.reports_other"
   ],
   "note": "The nested report makes Reports panic, because errReports.rvalue is never set. Other errors are kept."
  },
  {
   "property": "C147",
   "status": "partial",
   "theorems": [
    "Verif.Data.forEach_first",
    "Verif.Data.forEachMapped_nil",
    "Verif.Data.element_name_fails",
    "Verif.Data.exists_spec"
   ],
   "note": "The first error is reported; it has no field name."
  },
  {
   "property": "C148",
   "status": "partial",
   "theorems": [
    "Verif.Data.report_text",
    "Verif.Data.set_name",
    "Verif.Data.exceeds_text",
    "Verif.Data.exceeds_text_fails"
   ],
   "note": "The text of ErrExceeds asks for less than what is accepted."
  },
  {
   "property": "C149",
   "status": "proved",
   "theorems": [
    "Verif.Pair.toInto_copies",
    "Verif.Pair.toFrom_copies",
    "Verif.Pair.toInto_slice"
   ],
   "note": "For mappings that return the same pairs whenever called."
  },
  {
   "property": "C150",
   "status": "partial",
   "theorems": [
    "Verif.Pair.round_trip_partial",
    "Verif.Pair.round_trip_back_partial",
    "Verif.Pair.round_trip_nil_fails"
   ],
   "note": "Up to nil slices becoming empty; not for maps or for rules that pair part of an element."
  },
  {
   "property": "C151",
   "status": "partial",
   "theorems": [
    "Verif.Pair.map_empty_partial",
    "Verif.Pair.map_fails",
    "Verif.Pair.map_back_fails"
   ],
   "note": "Only empty maps are mapped; any other becomes a map of the zero key and value."
  },
  {
   "property": "C152",
   "status": "partial",
   "theorems": [
    "Verif.Pair.wrap_nil",
    "Verif.Pair.wrap_other",
    "Verif.Pair.wrap_renames_partial",
    "Verif.Pair.convert_last",
    "Verif.Pair.convert_ignored",
    "Verif.Pair.wrap_nested_fails",
    "Verif.Pair.wrap_not_struct_fails",
    "Verif.Pair.wrap_unexported_fails"
   ],
   "note": "For structs with exported fields, and fields that are paired at the top."
  },
  {
   "property": "C153",
   "status": "partial",
   "theorems": [
    "Verif.Pair.wrap_registered_partial",
    "Verif.Pair.wrap_report_fails",
    "Verif.Pair.wrap_check_fails"
   ],
   "note": "Only with a registered function that takes errors out of the report."
  },
  {
   "property": "C154",
   "status": "partial",
   "theorems": [
    "Verif.Rpc.resolve_partial",
    "Verif.Rpc.types_json",
    "Verif.Rpc.resolve_same_type_fails",
    "Verif.Rpc.register_no_result_fails"
   ],
   "note": "Functions of one type replace each other."
  },
  {
   "property": "C155",
   "status": "partial",
   "theorems": [
    "Verif.Rpc.call_any_partial",
    "Verif.Rpc.call_unknown",
    "Verif.Rpc.call_fails",
    "Verif.Rpc.call_documentation_fails"
   ],
   "note": "Call passes a pointer as the receiver, so it panics unless the receiver is of type any."
  },
  {
   "property": "C156",
   "status": "partial",
   "theorems": [
    "Verif.Fmts.choose_spec",
    "Verif.Fmts.recognised_partial",
    "Verif.Fmts.parser_of_format_partial",
    "Verif.Fmts.recognised_fails",
    "Verif.Fmts.unseparated_fails",
    "Verif.Fmts.parser_default_fails",
    "Verif.Fmts.parser_single_fails"
   ],
   "note": "For separators whose characters are nowhere else (also several characters, repeated, with empty arguments)."
  },
  {
   "property": "C157",
   "status": "partial",
   "theorems": [
    "Verif.Fmts.link_complete",
    "Verif.Fmts.link_choice_partial",
    "Verif.Fmts.link_choice_fails",
    "Verif.Fmts.link_error_top",
    "Verif.Fmts.link_error_fails",
    "Verif.Fmts.link_print_error_fails"
   ],
   "note": "Errors in namespaces are ignored, and a Parser in a namespace has no candidates."
  },
  {
   "property": "C158",
   "status": "proved",
   "theorems": [
    "Verif.Zgo.Esc.answer_is_reachability",
    "Verif.Zgo.Esc.scanner_marks_plain"
   ],
   "note": ""
  },
  {
   "property": "C159",
   "status": "proved",
   "theorems": [
    "Verif.Zgo.Esc.shared_with_a_sink_is_on_the_heap",
    "Verif.Zgo.Esc.nothing_escapes_without_a_sink",
    "Verif.Zgo.Esc.package_variables_are_static"
   ],
   "note": ""
  },
  {
   "property": "C160",
   "status": "partial",
   "theorems": [
    "Verif.Zgo.Esc.returned_or_stored_address_is_on_the_heap_partial",
    "Verif.Zgo.Esc.address_in_var_initialiser_fails",
    "Verif.Zgo.Esc.address_in_global_field_fails",
    "Verif.Zgo.Esc.captured_variable_fails",
    "Verif.Zgo.Esc.address_through_parameter_fails",
    "Verif.Zgo.Esc.outliving_is_on_the_heap_fails"
   ],
   "note": "Holds for addresses that flow through assignments; initial values of var, fields, captured variables and pointers of parameters are missed."
  },
  {
   "property": "C161",
   "status": "partial",
   "theorems": [
    "Verif.Zgo.Esc.scanned_uses_agree_partial",
    "Verif.Zgo.Esc.increment_disagrees_fails",
    "Verif.Zgo.Esc.range_variable_disagrees_fails"
   ],
   "note": "x++ and the variables of range are compiled as stack variables whatever their declaration is."
  },
  {
   "property": "C162",
   "status": "partial",
   "theorems": [
    "Verif.Zgo.Lit.integer_literal_partial",
    "Verif.Zgo.Lit.capital_prefix_fails",
    "Verif.Zgo.Lit.double_zero_fails",
    "Verif.Zgo.Lit.integer_literal_fails"
   ],
   "note": "Capital prefixes and octal literals with a second zero give invalid Zig."
  },
  {
   "property": "C163",
   "status": "partial",
   "theorems": [
    "Verif.Zgo.Lit.rune_literal_keeps_value",
    "Verif.Zgo.Lit.string_literal_partial",
    "Verif.Zgo.Lit.string_literal_bell_fails",
    "Verif.Zgo.Lit.string_literal_unicode_fails"
   ],
   "note": "Strings with escapes that only Go has give invalid Zig."
  },
  {
   "property": "C164",
   "status": "partial",
   "theorems": [
    "Verif.Zgo.Lit.float_literal_partial",
    "Verif.Zgo.Lit.float_underscores_partial",
    "Verif.Zgo.Lit.float_underscore_fails",
    "Verif.Zgo.Lit.imaginary_underscore_fails",
    "Verif.Zgo.Lit.text_determines",
    "Verif.Zgo.Lit.imaginary_literal_partial",
    "Verif.Zgo.Lit.imaginary_zero",
    "Verif.Zgo.Lit.zero_with_exponent_fails",
    "Verif.Zgo.Lit.float_literal_fails",
    "Verif.Zgo.Lit.imaginary_digit_fails",
    "Verif.Zgo.Lit.imaginary_zeros_fails",
    "Verif.Zgo.Lit.imaginary_binary_fails"
   ],
   "note": "Decimal literals, with underscores unless one follows the zeros at the start; zero with an exponent, zeros after an underscore, single-digit and all-zero imaginary literals and imaginary literals with an underscore after zeros fail."
  },
  {
   "property": "C165",
   "status": "partial",
   "theorems": [
    "Verif.Zgo.Op.zig_reads_one_way",
    "Verif.Zgo.Op.reads_back_iff",
    "Verif.Zgo.Op.expression_keeps_shape_partial",
    "Verif.Zgo.Op.bitwise_fails",
    "Verif.Zgo.Op.shift_fails",
    "Verif.Zgo.Op.and_mul_fails",
    "Verif.Zgo.Op.unreadable_fails",
    "Verif.Zgo.Op.expressions_keep_their_shape_fails"
   ],
   "note": "No parentheses are written, so only expressions whose operators group alike in both languages."
  },
  {
   "property": "C166",
   "status": "partial",
   "theorems": [
    "Verif.Zgo.Op.arithmetic_partial",
    "Verif.Zgo.Op.go_value_in_range",
    "Verif.Zgo.Op.overflow_fails",
    "Verif.Zgo.Op.arithmetic_fails"
   ],
   "note": "Without overflow; Zig's operators trap where Go's wrap around."
  },
  {
   "property": "C167",
   "status": "partial",
   "theorems": [
    "Verif.Zgo.Names.names_resolve_partial",
    "Verif.Zgo.Names.receiver_fails",
    "Verif.Zgo.Names.local_type_fails",
    "Verif.Zgo.Names.parameter_mention_fails",
    "Verif.Zgo.Names.keyword_fails"
   ],
   "note": "For package and local variables; receivers, local types and Zig keywords are not renamed consistently."
  },
  {
   "property": "C168",
   "status": "partial",
   "theorems": [
    "Verif.Zgo.Sel.promoted_field_iff",
    "Verif.Zgo.Sel.promoted_field_partial",
    "Verif.Zgo.Sel.promoted_field_fails",
    "Verif.Zgo.Sel.promoted_fields_fails"
   ],
   "note": "Exactly when the embedded field at each level k is field number k of its struct."
  },
  {
   "property": "C169",
   "status": "partial",
   "theorems": [
    "Verif.Zgo.Flow.control_flow_partial",
    "Verif.Zgo.Flow.compiled_statement_agrees_partial",
    "Verif.Zgo.Flow.break_in_switch_fails",
    "Verif.Zgo.Flow.break_labelled_range_fails",
    "Verif.Zgo.Flow.fallthrough_fails",
    "Verif.Zgo.Flow.continue_labelled_range_fails",
    "Verif.Zgo.Flow.switch_without_default_fails",
    "Verif.Zgo.Flow.not_compiled_fails",
    "Verif.Zgo.Flow.control_flow_fails"
   ],
   "note": "break in a switch leaves the loop, fallthrough is dropped, labels of range loops are on the body."
  },
  {
   "property": "C170",
   "status": "partial",
   "theorems": [
    "Verif.Zgo.Flow.braces_iff",
    "Verif.Zgo.Flow.braces_left_open",
    "Verif.Zgo.Flow.if_with_init_fails"
   ],
   "note": "Exactly the if statements with an initial statement leave a brace open."
  },
  {
   "property": "C171",
   "status": "proved",
   "theorems": [
    "Verif.Zgo.Chan.received_is_a_prefix_of_sent",
    "Verif.Zgo.Chan.calls_in_program_order",
    "Verif.Zgo.Chan.everything_is_received"
   ],
   "note": "Nil channels and elements of size zero are left out; there is no close."
  },
  {
   "property": "C172",
   "status": "partial",
   "theorems": [
    "Verif.Zgo.Chan.sends_are_bounded_partial",
    "Verif.Zgo.Chan.sends_are_bounded_fails"
   ],
   "note": "The buffer holds one element more than the capacity."
  },
  {
   "property": "C173",
   "status": "partial",
   "theorems": [
    "Verif.Zgo.Chan.never_stuck_partial",
    "Verif.Zgo.Chan.never_panics_partial",
    "Verif.Zgo.Chan.sender_not_woken_fails",
    "Verif.Zgo.Chan.receiver_not_woken_fails",
    "Verif.Zgo.Chan.stolen_value_fails",
    "Verif.Zgo.Chan.spurious_wakeup_fails"
   ],
   "note": "For one receiver, room for all sends, no spurious wake-ups; each is needed."
  },
  {
   "property": "C174",
   "status": "partial",
   "theorems": [
    "Verif.Oas.schema_means_type_partial",
    "Verif.Oas.schema_means_type_fails_packages",
    "Verif.Oas.schema_means_type_fails_embedded",
    "Verif.Oas.schema_means_type_fails_tagged",
    "Verif.Oas.schema_means_type_fails_pointer"
   ],
   "note": "For programs without name clashes (types by last path element, fields and embedded fields), tagged embedded structs and declared pointer types; each is needed."
  },
  {
   "property": "C175",
   "status": "partial",
   "theorems": [
    "Verif.Oas.schema_accepts_encoded_partial",
    "Verif.Oas.schema_accepts_encoded_fails_nil",
    "Verif.Oas.schema_accepts_encoded_fails_bytes",
    "Verif.Oas.schema_accepts_encoded_fails_keys"
   ],
   "note": "Without nil slices, maps and pointers, bytes, and integer keys, which the schemas refuse."
  },
  {
   "property": "C176",
   "status": "proved",
   "theorems": [
    "Verif.Oas.document_ends",
    "Verif.Oas.references_resolve"
   ],
   "note": ""
  },
  {
   "property": "C177",
   "status": "partial",
   "theorems": [
    "Verif.Oas.document_lists_served_partial",
    "Verif.Oas.document_lists_served_fails_duplicate",
    "Verif.Oas.document_lists_served_fails_http",
    "Verif.Oas.document_lists_served_fails_method"
   ],
   "note": "For well-formed rest tags with the eight methods and distinct routes; each is needed."
  },
  {
   "property": "C178",
   "status": "partial",
   "theorems": [
    "Verif.Bin.writes_tag_partial",
    "Verif.Bin.top_bit_fails",
    "Verif.Bin.first_letter_zero",
    "Verif.Bin.arm64_add_fails",
    "Verif.Bin.amd64_add_fails",
    "Verif.Bin.zero_fails",
    "Verif.Bin.signed_fails",
    "Verif.Bin.aligned_fails",
    "Verif.Bin.return_written",
    "Verif.Bin.bad_byte_panics",
    "Verif.Bin.bad_decimal_panics"
   ],
   "note": "For arguments below half their range, letters in one run, letters not also in brackets, decimals without 0, unsigned arguments; each is needed, and none of the instructions in the repository with an argument meets them."
  },
  {
   "property": "C179",
   "status": "partial",
   "theorems": [
    "Verif.Sdk.client_sends_partial",
    "Verif.Sdk.client_sends_fails_get",
    "Verif.Sdk.client_sends_fails_parameter",
    "Verif.Sdk.client_sends_fails_root",
    "Verif.Sdk.client_sends_fails_dash",
    "Verif.Sdk.client_sends_fails_clash"
   ],
   "note": "For paths of names without parameters, none of them a method's name, and for methods other than GET; each is needed."
  },
  {
   "property": "C180",
   "status": "partial",
   "theorems": [
    "Verif.Sdk.results_delivered_partial",
    "Verif.Sdk.results_delivered_fails"
   ],
   "note": "For statuses other than 200, which is the one functions with a result answer with."
  },
  {
   "property": "C181",
   "status": "partial",
   "theorems": [
    "Verif.Xray.Err.matches_kept",
    "Verif.Xray.Err.nil_kept",
    "Verif.Xray.Err.place_noted",
    "Verif.Xray.Err.message_kept_partial",
    "Verif.Xray.Err.message_kept_fails",
    "Verif.Xray.Err.places_printed_partial",
    "Verif.Xray.Err.places_printed_fails"
   ],
   "note": "The text changes when fmt.Errorf wraps what xray.New returned; places passed before errors.Join are not printed."
  },
  {
   "property": "C182",
   "status": "partial",
   "theorems": [
    "Verif.Rest.Header.headers_added",
    "Verif.Rest.Header.headers_added_in_any_order",
    "Verif.Rest.Header.request_kept_iff",
    "Verif.Rest.Header.request_kept_fails"
   ],
   "note": "Headers the caller had set under an added name are deleted from its request."
  },
  {
   "property": "C183",
   "status": "partial",
   "theorems": [
    "Verif.Rest.Header.credentials_leave_the_host",
    "Verif.Rest.Header.credentials_stay_fails"
   ],
   "note": "Refuted for every client that adds a header: redirects receive the credentials."
  },
  {
   "property": "C184",
   "status": "partial",
   "theorems": [
    "Verif.Vm.Reg.read_back",
    "Verif.Vm.Reg.read_back_bool",
    "Verif.Vm.Reg.read_narrower",
    "Verif.Vm.Reg.whole_register_partial",
    "Verif.Vm.Reg.whole_register_fails",
    "Verif.Vm.Reg.whole_register_fails_fpr",
    "Verif.Vm.Reg.truth_partial",
    "Verif.Vm.Reg.truth_fails",
    "Verif.Vm.Reg.c_false_is_go_true_fails",
    "Verif.Vm.Reg.c_true_is_go_true"
   ],
   "note": "int8, int32 and float32 (and all small types in floating-point registers) are followed by whatever memory holds beside the variable, so a false of C can be true."
  },
  {
   "property": "C185",
   "status": "partial",
   "theorems": [
    "Verif.Zgo.Slice.slices_partial",
    "Verif.Zgo.Slice.shared_append_fails",
    "Verif.Zgo.Slice.longer_copy_fails",
    "Verif.Zgo.Slice.make_fails",
    "Verif.Zgo.Slice.refused_fails"
   ],
   "note": "For slices that are not shared, not made with a length, and copies that fit; each is needed. Assigning elements, slicing, cap and append of several do not compile."
  },
  {
   "property": "C186",
   "status": "partial",
   "theorems": [
    "Verif.Zgo.Asg.assignment_partial",
    "Verif.Zgo.Asg.several_accepted",
    "Verif.Zgo.Asg.define_text",
    "Verif.Zgo.Asg.swap_fails",
    "Verif.Zgo.Asg.call_fails",
    "Verif.Zgo.Asg.dropped_fails",
    "Verif.Zgo.Asg.operator_fails",
    "Verif.Zgo.Asg.elements_fail",
    "Verif.Zgo.Asg.blank_takes_fails",
    "Verif.Zgo.Asg.andNot_fails"
   ],
   "note": "For single assignments to variables, _, *p and string-keyed map elements, and op= to variables; assignments to several variables are refused by Zig, crash the compiler, or drop all but a first map element; op= to maps and pointers loses the operator."
  },
  {
   "property": "C187",
   "status": "partial",
   "theorems": [
    "Verif.Zgo.Call.accepted_iff",
    "Verif.Zgo.Call.call_partial",
    "Verif.Zgo.Call.go_fails",
    "Verif.Zgo.Call.receiver_twice_fails"
   ],
   "note": "Conversions, function literals, fields and package variables, dots and empty variadics are not accepted by Zig; go f() of a package function waits; an interface receiver is evaluated twice."
  },
  {
   "property": "C188",
   "status": "partial",
   "theorems": [
    "Verif.Vm.Chk.checked_result_partial",
    "Verif.Vm.Chk.or_equal_fails",
    "Verif.Vm.Chk.negative_fails",
    "Verif.Vm.Chk.narrow_fails",
    "Verif.Vm.Chk.unchecked_fails",
    "Verif.Vm.Chk.code_fails",
    "Verif.Vm.Chk.parameter_fails"
   ],
   "note": "For one assertion (=, <, > or its inverse) with a number below 32 and results extended to 64 bits, not negative for < and >; each is needed: >= is checked as >, negative results compare as large ones, the bits beside an int are compared, without assertions every result is an error, the error does not have the result, and an assertion about a parameter panics."
  },
  {
   "property": "C189",
   "status": "partial",
   "theorems": [
    "Verif.Vm.Str.strings_arrive_partial",
    "Verif.Vm.Str.read_as_it_is",
    "Verif.Vm.Str.empty_string_fails",
    "Verif.Vm.Str.size_of_c_string",
    "Verif.Vm.Str.copy_of_c_string",
    "Verif.Vm.Str.reads_unique"
   ],
   "note": "For strings that are not empty, up to their first zero; the pointer of an empty string is passed without a zero at it."
  },
  {
   "property": "C190",
   "status": "partial",
   "theorems": [
    "Verif.Vm.Var.variants_agree_partial",
    "Verif.Vm.Var.dyncall_fails",
    "Verif.Vm.Var.third_argument_fails"
   ],
   "note": "For programs without dyncall and functions of R0, R1 and X0; each is needed."
  },
  {
   "property": "C191",
   "status": "partial",
   "theorems": [
    "Verif.Vm.Pin.pinned_until_freed_partial",
    "Verif.Vm.Pin.loads_its_address",
    "Verif.Vm.Pin.pool_bounded",
    "Verif.Vm.Pin.freed_twice_fails"
   ],
   "note": "For pointers freed once at most: freeing one twice frees another's pin."
  },
  {
   "property": "C192",
   "status": "proved",
   "theorems": [
    "Verif.Rest.Deno.reads_in_order",
    "Verif.Rest.Deno.read_fits",
    "Verif.Rest.Deno.end_is_the_end",
    "Verif.Rest.Deno.reads_end"
   ],
   "note": ""
  },
  {
   "property": "C193",
   "status": "partial",
   "theorems": [
    "Verif.Rest.Deno.request_arrives",
    "Verif.Rest.Deno.delivered_iff",
    "Verif.Rest.Deno.status_and_body_partial",
    "Verif.Rest.Deno.headers_fails",
    "Verif.Rest.Deno.no_content_fails",
    "Verif.Rest.Deno.remote_fails"
   ],
   "note": "Status and body arrive for statuses with a body; no header of an answer does, an answer without content (204, as for functions without results) ends the process, and the address is never known."
  },
  {
   "property": "C194",
   "status": "partial",
   "theorems": [
    "Verif.Vm.Cb.arguments_arrive_partial",
    "Verif.Vm.Cb.result_fails",
    "Verif.Vm.Cb.first_result_partial",
    "Verif.Vm.Cb.parameter_fails",
    "Verif.Vm.Cb.byte_fails"
   ],
   "note": "For parameters of eight kinds of numbers and strings and no result; a single result is never returned (the first of several is), a bool, int, uint16 or pointer ends the process, a byte is 0 or ends the process."
  },
  {
   "property": "C195",
   "status": "partial",
   "theorems": [
    "Verif.Vm.Cb.own_function_partial",
    "Verif.Vm.Cb.own_function_fails",
    "Verif.Vm.Cb.own_function_fails_length"
   ],
   "note": "For callbacks made one after the other; the list of functions is not guarded."
  },
  {
   "property": "C196",
   "status": "partial",
   "theorems": [
    "Verif.Mmm.copy_reads_partial",
    "Verif.Mmm.copy_released_early_fails",
    "Verif.Mmm.copy_counts_in_api_fails",
    "Verif.Mmm.copy_released_twice_fails",
    "Verif.Mmm.copy_never_freed_fails",
    "Verif.Mmm.stale_copy_fails"
   ],
   "note": "Copies read the same; the counter is never used: the API's first word is counted in instead, copies are freed at once, and the original twice or never."
  },
  {
   "property": "C197",
   "status": "partial",
   "theorems": [
    "Verif.Rest.Form.form_fields_partial",
    "Verif.Rest.Form.form_nil_fails",
    "Verif.Rest.Form.form_map_fails",
    "Verif.Rest.Form.form_excluded_fails",
    "Verif.Rest.Form.form_file_fails",
    "Verif.Rest.Form.form_fails"
   ],
   "note": "Without nil pointers, maps below a field, fields json leaves out or that are not exported, and files under 512 bytes or already read from; each is needed."
  },
  {
   "property": "C198",
   "status": "partial",
   "theorems": [
    "Verif.Rest.Plain.string_reads_back_iff",
    "Verif.Rest.Plain.integer_reads_back_partial",
    "Verif.Rest.Plain.blank_refused_iff",
    "Verif.Rest.Plain.list_by_line_partial",
    "Verif.Rest.Plain.wrapped_list",
    "Verif.Rest.Plain.list_marshalers_fails",
    "Verif.Rest.Plain.reads_back_fails",
    "Verif.Rest.Plain.nil_fails"
   ],
   "note": "Integers and single words are read back, lists of elements without MarshalText are written by line; types with UnmarshalText always read the empty text, lists cannot be read."
  },
  {
   "property": "C199",
   "status": "partial",
   "theorems": [
    "Verif.Zgo.Defer.accepted_iff",
    "Verif.Zgo.Defer.deferred_calls_partial",
    "Verif.Zgo.Defer.arguments_late_fails",
    "Verif.Zgo.Defer.panic_fails",
    "Verif.Zgo.Defer.deferred_calls_fails"
   ],
   "note": "For functions that compile (defers only among their outermost statements and of calls without results), that do not panic and do not change the arguments afterwards; each is needed."
  },
  {
   "property": "C200",
   "status": "partial",
   "theorems": [
    "Verif.Zgo.Mem.memory_valid_partial",
    "Verif.Zgo.Mem.nothing_released",
    "Verif.Zgo.Mem.released_fails",
    "Verif.Zgo.Mem.memory_valid_fails"
   ],
   "note": "Valid without nil channels and tests; a nil channel frees the routine's memory and goes on. Nothing a goroutine allocated is ever given back."
  },
  {
   "property": "C201",
   "status": "partial",
   "theorems": [
    "Verif.Zgo.Comp.accepted_iff",
    "Verif.Zgo.Comp.literal_partial",
    "Verif.Zgo.Comp.literals_refused",
    "Verif.Zgo.Comp.literals_fails"
   ],
   "note": "For the literals that are accepted, which are characterised: arrays with all their elements, slices without keys, structs with all their fields, maps with string keys, and no elements without their types."
  },
  {
   "property": "C202",
   "status": "partial",
   "theorems": [
    "Verif.Zgo.Comp.maps_partial",
    "Verif.Zgo.Comp.maps_accepted_iff",
    "Verif.Zgo.Comp.maps_fails"
   ],
   "note": "For make without size, literals, sharing, assignments and reads of string-keyed maps; the other operations do not compile."
  },
  {
   "property": "C203",
   "status": "partial",
   "theorems": [
    "Verif.Jrpc.Obj.struct_read_partial",
    "Verif.Jrpc.Obj.struct_nested_partial",
    "Verif.Jrpc.Obj.struct_trip_partial",
    "Verif.Jrpc.Obj.empty_object_fails",
    "Verif.Jrpc.Obj.unknown_member_fails",
    "Verif.Jrpc.Obj.unexported_fails",
    "Verif.Jrpc.Obj.names_fails"
   ],
   "note": "For objects with members, each naming an exported field. Empty objects leave their closing brace in the stream, unknown members are refused, unexported fields panic, tags with options only and - are not read by the name they are written with."
  },
  {
   "property": "C204",
   "status": "partial",
   "theorems": [
    "Verif.Jrpc.Fl.float_read_partial",
    "Verif.Jrpc.Fl.float_exact_partial",
    "Verif.Jrpc.Fl.whole_number_fails",
    "Verif.Jrpc.Fl.negative_fails",
    "Verif.Jrpc.Fl.space_fails",
    "Verif.Jrpc.Fl.float_fails"
   ],
   "note": "For numbers with a point, without sign, with at most 18 digits on either side, not followed by white space. Numbers without a point are read as NaN, negative fractions are added instead of subtracted."
  },
  {
   "property": "C205",
   "status": "partial",
   "theorems": [
    "Verif.Zgo.Const.constants_partial",
    "Verif.Zgo.Const.constants_compile_partial",
    "Verif.Zgo.Const.vars_partial",
    "Verif.Zgo.Const.repetition_panics",
    "Verif.Zgo.Const.iota_refused",
    "Verif.Zgo.Const.large_untyped_fails",
    "Verif.Zgo.Const.shift_fails",
    "Verif.Zgo.Const.var_call_panics"
   ],
   "note": "Integers: what is accepted has Go's values unless a constant is shifted to the left (shift_fails: silently wrong); declarations within int are accepted. Implicit repetition and var a, b = f() always panic, iota is never accepted, untyped constants outside int are refused."
  },
  {
   "property": "C206",
   "status": "partial",
   "theorems": [
    "Verif.Kvs.Conc.atomic_partial",
    "Verif.Kvs.Conc.key_by_key_partial",
    "Verif.Kvs.Conc.disjoint_partial",
    "Verif.Kvs.Conc.every_moment_partial",
    "Verif.Kvs.Conc.atomic_fails",
    "Verif.Kvs.Conc.half_commit_fails"
   ],
   "note": "Atomic for Get, Set and Del; commits are atomic key by key and if goroutines mention different keys, not otherwise: two commits can be mixed, and a reader sees half of one. Load, Store and Delete of sync.Map are taken to be atomic."
  },
  {
   "property": "C207",
   "status": "partial",
   "theorems": [
    "Verif.Kvs.Open.own_maps_partial",
    "Verif.Kvs.Open.own_maps_fails",
    "Verif.Kvs.Open.same_tag_same_map",
    "Verif.Kvs.Open.unexported_panics"
   ],
   "note": "For exported maps with different tags; maps with the same tag or without one are one map (same_tag_same_map), those not exported panic. The database is taken to be a map from format and key whose calls do not fail."
  },
  {
   "property": "C208",
   "status": "partial",
   "theorems": [
    "Verif.Sql.part_columns_partial",
    "Verif.Sql.pointers_mean_partial",
    "Verif.Sql.pointers_mean_fails",
    "Verif.Sql.pointers_same_table_fails",
    "Verif.Sql.pointers_tag_options_fails",
    "Verif.Sql.pointers_open_table_fails"
   ],
   "note": "For exported fields and tags without options, if tables of one name and key type agree on the key column's name; otherwise queries name columns the table does not have, and maps from OpenTable panic."
  },
  {
   "property": "C209",
   "status": "partial",
   "theorems": [
    "Verif.Sql.db_query_partial",
    "Verif.Sql.db_empty_fails",
    "Verif.Sql.db_clash_fails",
    "Verif.Sql.db_no_cases_fails",
    "Verif.Sql.db_no_column_fails",
    "Verif.Sql.db_unexported_fails"
   ],
   "note": "For tables without two columns of one name; Empty of scalars only (a struct is judged by its first column), no empty Cases, and parts with at least one column."
  },
  {
   "property": "C210",
   "status": "partial",
   "theorems": [
    "Verif.Sql.db_map_partial",
    "Verif.Sql.db_map_fails",
    "Verif.Sql.failures_reported"
   ],
   "note": "For keys other than the zero value, which is refused (the map in memory takes it), and scalars that equal only themselves. Calls outside transactions; databases as documented, that do not fail."
  },
  {
   "property": "C211",
   "status": "partial",
   "theorems": [
    "Verif.Sql.Tx.db_ok_iff",
    "Verif.Sql.Tx.db_one_call_partial",
    "Verif.Sql.Tx.db_transfer_fails",
    "Verif.Sql.Tx.db_error_fails",
    "Verif.Sql.Tx.db_empty_fails",
    "Verif.Sql.Tx.mem_ok_iff",
    "Verif.Sql.Tx.mem_partial",
    "Verif.Sql.Tx.mem_error_fails",
    "Verif.Sql.Tx.mem_nest_fails",
    "Verif.Sql.Tx.isolated_partial",
    "Verif.Sql.Tx.progress_partial",
    "Verif.Sql.Tx.isolated_fails"
   ],
   "note": "On a database only transactions of exactly one call without an error work (db_ok_iff): the first call commits, the second panics. In memory nested Manage hangs, errors do not undo anything, and calls outside transactions do not wait."
  },
  {
   "property": "C212",
   "status": "partial",
   "theorems": [
    "Verif.Sql.Stat.db_stats_partial",
    "Verif.Sql.Stat.mem_counts_partial",
    "Verif.Sql.Stat.count_report_partial",
    "Verif.Sql.Stat.count_reported_fails",
    "Verif.Sql.Stat.count_overflow_fails",
    "Verif.Sql.Stat.mem_sum_fails",
    "Verif.Sql.Stat.count_error_fails",
    "Verif.Sql.Stat.count_twice_fails"
   ],
   "note": "Right for drivers that use NewOutput, and for counts in memory; other integer types are read as -1 or 0, Sum in memory panics, Count answers 1 after an error."
  },
  {
   "property": "C213",
   "status": "proved",
   "theorems": [
    "Verif.Sql.Stat.driver_round_trip",
    "Verif.Sql.Stat.scan_error_reported"
   ],
   "note": ""
  },
  {
   "property": "C214",
   "status": "partial",
   "theorems": [
    "Verif.Rest.Serve.arguments_as_requested_partial",
    "Verif.Rest.Serve.unreadable_refused_partial",
    "Verif.Rest.Serve.says_unique",
    "Verif.Rest.Serve.unknown_type_refused_partial",
    "Verif.Rest.Serve.lists_of_one",
    "Verif.Rest.Serve.lists_fails"
   ],
   "note": "For single values and lists of none or several; a list of one is read as the zero value. Pointers panic (C123)."
  },
  {
   "property": "C215",
   "status": "partial",
   "theorems": [
    "Verif.Rest.client_error_iff",
    "Verif.Rest.error_arrives_iff",
    "Verif.Rest.bodiless_error",
    "Verif.Rest.relayed_partial",
    "Verif.Rest.trimSpace_twice",
    "Verif.Rest.relayed_fails"
   ],
   "note": "Exactly which errors arrive is proved; statuses 1xx, 2xx and 404 on DELETE look like success, and 404 becomes 500 in the next service."
  },
  {
   "property": "C216",
   "status": "partial",
   "theorems": [
    "Verif.Rest.Serve.page_or_call",
    "Verif.Rest.Serve.page_authenticated",
    "Verif.Rest.Serve.page_fails"
   ],
   "note": "Exactly characterised; any mention of text/html counts, also one the client hardly wants."
  },
  {
   "property": "C217",
   "status": "proved",
   "theorems": [
    "Verif.Xyz.Reading.always_of_type",
    "Verif.Xyz.Reading.json_number_exact",
    "Verif.Xyz.Reading.text_number",
    "Verif.Xyz.Reading.text_signed",
    "Verif.Xyz.Reading.text_octal_cut"
   ],
   "note": "Texts of numbers are decimal, octal after a zero, or with 0b, 0o, 0x; a digit 8 or 9 in an octal number ends it without an error (text_octal_cut)."
  },
  {
   "property": "C218",
   "status": "partial",
   "theorems": [
    "Verif.Zgo.Typ.text_partial",
    "Verif.Zgo.Typ.same_text_partial",
    "Verif.Zgo.Typ.written",
    "Verif.Zgo.Typ.lost_fails",
    "Verif.Zgo.Typ.words_fails",
    "Verif.Zgo.Typ.alias_fails",
    "Verif.Zgo.Typ.written_fails"
   ],
   "note": "Determined up to channel directions, type arguments, package paths, tags, variadic and untyped constants; names that cannot be mistaken for Zig's words. Written exactly when no function of several results, untyped nil or unsafe pointer is in it."
  },
  {
   "property": "C219",
   "status": "partial",
   "theorems": [
    "Verif.Zgo.Typ.described_iff",
    "Verif.Zgo.Typ.described_own",
    "Verif.Zgo.Typ.described_fails",
    "Verif.Zgo.Typ.defined_number_fails"
   ],
   "note": "Exactly which types have one: integers, floats, structs and strings defined in the package, and pointers to them. Strings, booleans, complex numbers, errors, slices, foreign types have none. Descriptions of structs' fields are not looked into."
  },
  {
   "property": "C220",
   "status": "partial",
   "theorems": [
    "Verif.Oas.Form.whole_means",
    "Verif.Oas.Form.form_means_partial",
    "Verif.Oas.Form.form_names_fails",
    "Verif.Oas.Form.form_pointer_fails",
    "Verif.Oas.Form.form_tabs",
    "Verif.Oas.Form.form_tabs_fails",
    "Verif.Oas.Form.form_unknown"
   ],
   "note": "For types of different names and bodies that are not pointers. Types of one name in two packages are confused, a pointer to a declared type gets a form that refuses everything, PATCH has no tab, and an operation that does not exist has a form that takes everything."
  },
  {
   "property": "C221",
   "status": "proved",
   "theorems": [
    "Verif.Api.Tag.key_is_read",
    "Verif.Api.Tag.docs_are_no_tags",
    "Verif.Api.Tag.text_documents",
    "Verif.Api.Tag.tag_documents",
    "Verif.Api.Tag.type_documents"
   ],
   "note": "However values are unquoted. The comment of DocumentationOf says that it ignores any tabs; it ignores indentation only (tabs_fails)."
  },
  {
   "property": "C222",
   "status": "partial",
   "theorems": [
    "Verif.Api.Example.steps_partial",
    "Verif.Api.Example.notes_partial",
    "Verif.Api.Example.notes_fails",
    "Verif.Api.Example.nested_notes_fails",
    "Verif.Api.Example.setup_fails"
   ],
   "note": "Calls without setups in setups; notes for examples that begin with one and whose calls make no traced calls. Otherwise a note goes to the first call of the example, or to a call inside the one it is for, and a call after an inner setup is not marked."
  },
  {
   "property": "C223",
   "status": "proved",
   "theorems": [
    "Verif.Api.Example.example_iff",
    "Verif.Api.Example.test_iff"
   ],
   "note": ""
  },
  {
   "property": "C224",
   "status": "partial",
   "theorems": [
    "Verif.Qnq.Dur.kept_partial",
    "Verif.Qnq.Dur.acked_succeeded",
    "Verif.Qnq.Dur.acked_called",
    "Verif.Qnq.Dur.send_reported",
    "Verif.Qnq.Dur.listen_fails",
    "Verif.Qnq.Dur.once_fails",
    "Verif.Qnq.Dur.send_error_fails"
   ],
   "note": "From when the goroutine of Listen receives; what another process sends before is lost. Messages of this process are handled twice although nothing fails, and Send reports errors for messages that are buffered."
  },
  {
   "property": "C225",
   "status": "partial",
   "theorems": [
    "Verif.Xyz.pair_round_trip_partial",
    "Verif.Xyz.pair_read_iff",
    "Verif.Xyz.pair_refused",
    "Verif.Xyz.pair_written",
    "Verif.Xyz.pair_round_trip_fails",
    "Verif.Xyz.text_storage_lost",
    "Verif.Xyz.unset_pair_panics",
    "Verif.Xyz.key_fails",
    "Verif.Xyz.key_agrees",
    "Verif.Xyz.untagged_no_pair"
   ],
   "note": "Fails when an earlier case has the key as the name beside its constant, and for cases with a txt tag, whose storage is dropped; Key is not what MarshalPair writes for a text with verbs. Proved otherwise; what Sprintf makes of verbs is a parameter."
  },
  {
   "property": "C226",
   "status": "partial",
   "theorems": [
    "Verif.Zgo.Print.println_partial",
    "Verif.Zgo.Print.compiled_iff",
    "Verif.Zgo.Print.float_differs",
    "Verif.Zgo.Print.println_fails",
    "Verif.Zgo.Print.defined_fails"
   ],
   "note": "Integers, strings and booleans. Floats are written with the shortest digits and without Go's sign and exponent; complex numbers, pointers and defined types are refused."
  },
  {
   "property": "C227",
   "status": "partial",
   "theorems": [
    "Verif.Oas.Name.own_schema_partial",
    "Verif.Oas.Name.name_read_partial",
    "Verif.Oas.Name.own_schema_fails",
    "Verif.Oas.Name.map_keys_fails",
    "Verif.Oas.Name.nested_fails",
    "Verif.Oas.Name.local_types_fails"
   ],
   "note": "For types whose arguments are declared types with at most one argument each. Page[*T] shares the schema of Page[T], Page[map[string]T] that of Page[map[int]T], and local types of the same name share one; nested lists of arguments are written with their brackets misplaced."
  },
  {
   "property": "C228",
   "status": "partial",
   "theorems": [
    "Verif.Oas.Ref.ref_resolves_partial",
    "Verif.Oas.Ref.ref_uri_partial",
    "Verif.Oas.Ref.lookup_iff",
    "Verif.Oas.Ref.generic_ref_not_uri",
    "Verif.Oas.Ref.ref_fails",
    "Verif.Oas.Ref.percent_ref_fails"
   ],
   "note": "For names without slash, tilde and per cent sign; references to instances of generic types have brackets and spaces that URIs may not have, and names with %2e are referred to by another name."
  },
  {
   "property": "C229",
   "status": "partial",
   "theorems": [
    "Verif.Zgo.Range.slicing_partial",
    "Verif.Zgo.Range.range_bounded",
    "Verif.Zgo.Range.no_upper_bound",
    "Verif.Zgo.Range.no_upper_bound_fails",
    "Verif.Zgo.Range.capacity_fails",
    "Verif.Zgo.Range.append_fails",
    "Verif.Zgo.Range.overlapping_copy_fails"
   ],
   "note": "For slice expressions with an upper bound and no capacity, without append and without copies into a later part of the same elements; each is needed: p[:] is empty, p[1:] panics, a capacity is not checked, append does not write into the array, and an overlapping copy repeats elements. Slices of slices, strings and arrays do not compile (C185)."
  },
  {
   "property": "C230",
   "status": "partial",
   "theorems": [
    "Verif.Json.types_written",
    "Verif.Json.types_read_string",
    "Verif.Json.types_read_array",
    "Verif.Json.types_round_trip",
    "Verif.Json.types_nil_round_trip",
    "Verif.Json.types_injective",
    "Verif.Json.types_accepts_partial",
    "Verif.Json.types_null_element_fails",
    "Verif.Json.types_round_trip_fails",
    "Verif.Json.types_leading_space_fails"
   ],
   "note": "Written and read for all sets of valid UTF-8. A null in an array is accepted as whatever was there before, bytes that are not UTF-8 are lost, and the method refuses white space before a string when called by itself."
  },
  {
   "property": "C231",
   "status": "partial",
   "theorems": [
    "Verif.Json.static_own",
    "Verif.Json.static_only",
    "Verif.Json.static_accepts_partial",
    "Verif.Json.static_escape_fails",
    "Verif.Json.static_space_fails"
   ],
   "note": "It never accepts another value, but only the bytes that Go itself writes: other escapes or white space in JSON of the same value are refused."
  },
  {
   "property": "C232",
   "status": "partial",
   "theorems": [
    "Verif.Ffi.Box.handles_are_go_partial",
    "Verif.Ffi.Box.channels_fail",
    "Verif.Ffi.Box.channels_fails",
    "Verif.Ffi.Box.closed_channel_fails",
    "Verif.Ffi.Box.maps_stay_empty",
    "Verif.Ffi.Box.pointer_nil_fails"
   ],
   "note": "Proved for programs without sends, receives and comparisons of pointers with nil, for elements of scalar kinds and strings. Sends always panic, nothing is ever received, maps stay empty, and Pointer.Nil panics."
  },
  {
   "property": "C233",
   "status": "partial",
   "theorems": [
    "Verif.Xyz.Ext.texts_restored_partial",
    "Verif.Xyz.Ext.text_selects",
    "Verif.Xyz.Ext.cases_told_apart",
    "Verif.Xyz.Ext.text_storage_fails",
    "Verif.Xyz.Ext.text_verbs_fails",
    "Verif.Xyz.Ext.text_empty_fails",
    "Verif.Xyz.Ext.extern_alone_panics",
    "Verif.Xyz.Ext.extend_plain_fails"
   ],
   "note": "The case is restored, not the storage, which stays as it was; cases whose texts have verbs are written formatted and not recognised when read; the empty text selects a case that has none; reading into an extern type that has no extension yet panics. Goroutines take turns (C67)."
  },
  {
   "property": "C234",
   "status": "partial",
   "theorems": [
    "Verif.Sql.Value.string_says_partial",
    "Verif.Sql.Value.string_tells_apart_partial",
    "Verif.Sql.Value.times_same_second",
    "Verif.Sql.Value.zero_iff",
    "Verif.Sql.Value.time_text_fails",
    "Verif.Sql.Value.time_zone_fails",
    "Verif.Sql.Value.no_case_not_zero"
   ],
   "note": "IsZero in full. The string for all values but floats, whose text is a parameter, and times: fractions of seconds are not written, nor the seconds of an offset, so different times have the same string."
  },
  {
   "property": "C235",
   "status": "partial",
   "theorems": [
    "Verif.Xyz.SwitchText.listed",
    "Verif.Xyz.SwitchText.listed_distinct",
    "Verif.Xyz.SwitchText.field_name",
    "Verif.Xyz.SwitchText.name_read_partial",
    "Verif.Xyz.SwitchText.listed_read_partial",
    "Verif.Xyz.SwitchText.accepts_partial",
    "Verif.Xyz.SwitchText.others_refused_partial",
    "Verif.Xyz.SwitchText.refused_unchanged",
    "Verif.Xyz.SwitchText.case_written_partial",
    "Verif.Xyz.SwitchText.claim_fails"
   ],
   "note": "Proved on the texts, escapes included: the list has a JSON string per case saying its name, differing if the names do; booleans, integers and unsigned enums accept exactly the strings that say a name, any spelling, each as its case; refused texts change nothing; the value of a case is written as a listed text that reads back. The claim in full fails (witnesses in claim_fails): a string enum accepts strings it does not list, numbers without a name are written as strings that are neither listed nor accepted, and a uintptr enum accepts its names but ignores them. JSON texts that do not begin with a quotation mark, and floating point storage, are not modelled."
  },
  {
   "property": "C236",
   "status": "partial",
   "theorems": [
    "Verif.Api.Answer.scenarios_listed",
    "Verif.Api.Answer.test_iff",
    "Verif.Api.Answer.one_case",
    "Verif.Api.Answer.status_partial",
    "Verif.Api.Answer.message_partial",
    "Verif.Api.Answer.answered_partial",
    "Verif.Api.Answer.silent_500",
    "Verif.Api.Answer.others_own",
    "Verif.Api.Answer.own_status",
    "Verif.Api.Answer.own_status_default",
    "Verif.Api.Answer.held_text",
    "Verif.Api.Answer.texts",
    "Verif.Api.Answer.wrapping_same",
    "Verif.Api.Answer.claim_fails",
    "Verif.Api.Answer.wrapped_fails",
    "Verif.Api.Answer.bad_status_fails",
    "Verif.Api.Answer.not_implemented_501",
    "Verif.Api.Answer.zero_is_500",
    "Verif.Api.Answer.coded_answer",
    "Verif.Api.Answer.signed_partial"
   ],
   "note": "Proved for errors that wrap one error at a time: the scenarios are exactly the cases registered; an error of a registered case is answered with the status in its tag and its documentation (else its text) however deep it is wrapped; with 500 if the tag says no status; errors of no registered case keep their own status and text. The claim in full fails (witnesses): errors.Join hides a case, an unregistered case loses its status when wrapped, one case within another is answered as the outer one, a status not of three digits makes the answer panic, and the two readings of an overlong status disagree. Not modelled: authenticators, header-setting errors (in C72 and others), texts with verbs."
  },
  {
   "property": "C237",
   "status": "partial",
   "theorems": [
    "Verif.Rest.Field.stored",
    "Verif.Rest.Field.found_is",
    "Verif.Rest.Field.others_kept",
    "Verif.Rest.Field.look",
    "Verif.Rest.Field.total",
    "Verif.Rest.Field.zero_at",
    "Verif.Rest.Field.all_stored_partial",
    "Verif.Rest.Field.pointer_argument_fails",
    "Verif.Rest.Field.pointer_pointer_fails",
    "Verif.Rest.Field.fetch_at",
    "Verif.Rest.Field.client_reads_partial",
    "Verif.Rest.Field.client_agrees_partial",
    "Verif.Rest.Field.client_nil_fails"
   ],
   "note": "Proved for arguments that are no pointers: every index the type has is reached without a panic, nil pointers on the way are made, what was stored is there afterwards, everything at an index that parts from it is kept, the value stays one of its type, and any list of parameters with indexes apart are all stored. The claim in full fails: a function that takes a pointer to a struct panics on any parameter in its fields (its argument is a nil pointer), and a pointer to a pointer is not followed. The client reads any field that is there, behind any number of pointers at the start, and agrees with what a handler stored; on a nil pointer inside an argument that is not behind a pointer it panics. A tag that names a field behind a pointer inside a struct is refused by a panic at registration (rest.go:656-668), so there the functions are modelled on their own."
  }
 ]
}