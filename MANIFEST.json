{
 "claims": [
  {
   "property": "C02",
   "status": "proved",
   "theorems": [
    "QtPb.C02_varint_canonical",
    "QtPb.C02_varint_roundtrip",
    "QtPb.C02_singular_field"
   ],
   "note": ""
  },
  {
   "property": "C03",
   "status": "proved",
   "theorems": [
    "QtPb.C03_sint32_wire",
    "QtPb.C03_sint64_wire",
    "QtPb.C03_sint_roundtrip",
    "QtPb.C03_sint32_decode"
   ],
   "note": ""
  },
  {
   "property": "C04",
   "status": "proved",
   "theorems": [
    "QtPb.C04_fixed32_bytes",
    "QtPb.C04_fixed64_bytes",
    "QtPb.C04_fixed_roundtrip"
   ],
   "note": ""
  },
  {
   "property": "C05",
   "status": "proved",
   "theorems": [
    "QtPb.C05_header_roundtrip",
    "QtPb.C05_header_bytes",
    "QtPb.C05_header_accept"
   ],
   "note": ""
  },
  {
   "property": "C13",
   "status": "proved",
   "theorems": [
    "QtPb.C13_enum_wire",
    "QtPb.C13_enum_decode",
    "QtPb.C13_enum_list"
   ],
   "note": ""
  },
  {
   "property": "C22",
   "status": "proved",
   "theorems": [
    "QtPb.C22_int32_sign_extended",
    "QtPb.C22_any_varint",
    "QtPb.C22_padding"
   ],
   "note": ""
  },
  {
   "property": "C01",
   "status": "proved",
   "theorems": [
    "QtPb.C01_roundtrip",
    "QtPb.C01_roundtrip_exact"
   ],
   "note": ""
  },
  {
   "property": "C20",
   "status": "partial",
   "theorems": [
    "QtPb.C20_serialize_terminates_partial",
    "QtPb.C20_recursive_diverges",
    "QtPb.C20_recursive_violated",
    "QtPb.C20_budget_independent"
   ],
   "note": "fails for types that reach themselves through singular message fields; proved for all others"
  },
  {
   "property": "C06",
   "status": "proved",
   "theorems": [
    "QtPb.C06_absent_field",
    "QtPb.C06_omission",
    "QtPb.C06_message_parts"
   ],
   "note": ""
  },
  {
   "property": "C07",
   "status": "proved",
   "theorems": [
    "QtPb.C07_unknown_skipped"
   ],
   "note": ""
  },
  {
   "property": "C08",
   "status": "proved",
   "theorems": [
    "QtPb.C08_left_to_right",
    "QtPb.C08_target",
    "QtPb.C08_new_target"
   ],
   "note": ""
  },
  {
   "property": "C09",
   "status": "proved",
   "theorems": [
    "QtPb.C09_field_order"
   ],
   "note": ""
  },
  {
   "property": "C10",
   "status": "proved",
   "theorems": [
    "QtPb.C10_repeated"
   ],
   "note": ""
  },
  {
   "property": "C11",
   "status": "partial",
   "theorems": [
    "QtPb.C11_split_violated",
    "QtPb.C11_last_record_wins",
    "QtPb.C11_concatenated_partial"
   ],
   "note": "packed numeric lists in several records are replaced, not concatenated; concatenation proved for enum, string, bytes and message lists"
  },
  {
   "property": "C12",
   "status": "proved",
   "theorems": [
    "QtPb.C12_last_entry_wins",
    "QtPb.C12_more_entries",
    "QtPb.C12_roundtrip"
   ],
   "note": ""
  },
  {
   "property": "C14",
   "status": "proved",
   "theorems": [
    "QtPb.C14_bad_tag",
    "QtPb.C14_nested"
   ],
   "note": ""
  },
  {
   "property": "C15",
   "status": "proved",
   "theorems": [
    "QtPb.C15_truncated",
    "QtPb.C15_truncated_tag",
    "QtPb.C15_truncated_value",
    "QtPb.C15_truncated_element"
   ],
   "note": ""
  },
  {
   "property": "C16",
   "status": "partial",
   "theorems": [
    "QtPb.C16_reading_partial",
    "QtPb.C16_exactly_partial",
    "QtPb.C16_only_cut_partial",
    "QtPb.C16_described_partial",
    "QtPb.C16_overrun_violated"
   ],
   "note": "undefined reads happen for cut off values and over-long varints, counterexamples given; for inputs without negative lengths these are exactly the inputs with undefined reads"
  },
  {
   "property": "C17",
   "status": "partial",
   "theorems": [
    "QtPb.C17_terminates_partial",
    "QtPb.C17_budget_partial",
    "QtPb.C17_reading_partial",
    "QtPb.C17_skip_violated"
   ],
   "note": "lengths of 2^31 and more make the decoder move backwards and loop for ever, counterexample given; all other inputs terminate within one step per byte"
  },
  {
   "property": "C18",
   "status": "partial",
   "theorems": [
    "QtPb.C18_failed_partial",
    "QtPb.C18_prefix_partial",
    "QtPb.C18_decoded_typed",
    "QtPb.C18_new_target_partial",
    "QtPb.C18_reading_partial",
    "QtPb.C18_negative_length_violated",
    "QtPb.C18_message_map_violated"
   ],
   "note": "proved for all inputs without negative lengths: on a new target for every schema, on an arbitrary target for schemas without maps of messages; counterexamples for both exceptions"
  },
  {
   "property": "C19",
   "status": "partial",
   "theorems": [
    "QtPb.C19_forgets_partial",
    "QtPb.C19_new_target",
    "QtPb.C19_target_same_keys_partial",
    "QtPb.C19_negative_zero_violated",
    "QtPb.C19_message_map_violated"
   ],
   "note": "holds up to the generated comparison and without maps of messages; counterexamples for the rest"
  },
  {
   "property": "C24",
   "status": "partial",
   "theorems": [
    "QtPb.C24_scalars",
    "QtPb.C24_keys",
    "QtPb.C24_notNaN",
    "QtPb.C24_answer_right",
    "QtPb.C24_terminates",
    "QtPb.C24_decides_partial",
    "QtPb.C24_refl",
    "QtPb.C24_symm",
    "QtPb.C24_trans",
    "QtPb.C24_unset_equals_default",
    "QtPb.C24_not_equal",
    "QtPb.C24_same_keys_partial",
    "QtPb.C24_with_default",
    "QtPb.C24_with_itself",
    "QtPb.C24_no_maps_comparable",
    "QtPb.C24_message_map_violated",
    "QtPb.C24_null_entry_violated"
   ],
   "note": "holds for every pair of messages whose maps of messages of equal size have the same keys; comparing two maps of messages with different keys dereferences a null pointer, or (entries without value) answers true"
  },
  {
   "property": "C25",
   "status": "partial",
   "theorems": [
    "QtPb.C25_copy",
    "QtPb.C25_assign_partial",
    "QtPb.C25_assign_sound",
    "QtPb.C25_assign_same_keys_partial",
    "QtPb.C25_assign_to_new",
    "QtPb.C25_assign_to_itself",
    "QtPb.C25_message_map_violated"
   ],
   "note": "copy construction proved for all schemas; assignment whenever the maps of messages inside sub-messages have the same keys or different sizes"
  },
  {
   "property": "C26",
   "status": "partial",
   "theorems": [
    "QtPb.C26_write",
    "QtPb.C26_history",
    "QtPb.C26_reads_last_write",
    "QtPb.C26_write_returns_partial",
    "QtPb.C26_history_returns_partial",
    "QtPb.C26_write_returns_same_keys_partial",
    "QtPb.C26_message_map_violated"
   ],
   "note": "every history that returns follows the specification; all histories return unless maps of messages are compared"
  },
  {
   "property": "C23",
   "status": "partial",
   "theorems": [
    "QtPb.SelfCheck.C23_in_range_partial",
    "QtPb.SelfCheck.C23_throws_iff",
    "QtPb.SelfCheck.C23_failed_not_copied",
    "QtPb.SelfCheck.C23_after_exception_violated",
    "QtPb.SelfCheck.C23_overflow_violated",
    "QtPb.SelfCheck.C23_codec_iterator"
   ],
   "note": "holds for every history up to the first exception with counts below 2^31; counterexamples for use after a caught exception and for overflowing counts"
  },
  {
   "property": "C21",
   "status": "proved",
   "theorems": [
    "QtPb.C21_reference_exact",
    "QtPb.C21_reference"
   ],
   "note": "every message without NaN, with UTF-8 exact text, of a schema for which serialize returns (no cycle of singular messages, no repeated bool), output below 2^31 bytes; the exact form covers NaN too"
  },
  {
   "property": "C27",
   "status": "proved",
   "theorems": [
    "QtPb.Registry.C27_exclusive",
    "QtPb.Registry.C27_never_torn",
    "QtPb.Registry.C27_linearizable",
    "QtPb.Registry.C27_last_registration",
    "QtPb.Registry.C27_unregistered"
   ],
   "note": ""
  },
  {
   "property": "C28",
   "status": "proved",
   "theorems": [
    "QtPb.Registry.C28_no_deadlock",
    "QtPb.Registry.C28_bounded",
    "QtPb.Registry.C28_own_steps",
    "QtPb.Registry.C28_all_returned"
   ],
   "note": ""
  },
  {
   "property": "C29",
   "status": "proved",
   "theorems": [
    "QtPb.TypeReg.C29_once",
    "QtPb.TypeReg.C29_returns",
    "QtPb.TypeReg.C29_late_violated"
   ],
   "note": "for one thread; C29_late_violated shows that functions appended after the first call never run, C50 that threads break it"
  },
  {
   "property": "C30",
   "status": "partial",
   "theorems": [
    "QtPb.Plugins.C30_answers",
    "QtPb.Plugins.C30_lookup_harmless",
    "QtPb.Plugins.C30_default",
    "QtPb.Plugins.C30_first_stays",
    "QtPb.Plugins.C30_unknown_plugin_violated"
   ],
   "note": "holds for every history except that asking for a serializer of a plugin that was never loaded dereferences a null pointer instead of throwing"
  },
  {
   "property": "C50",
   "status": "partial",
   "theorems": [
    "QtPb.TypeReg.C50_single_partial",
    "QtPb.TypeReg.C50_early_return_violated",
    "QtPb.TypeReg.C50_twice_violated"
   ],
   "note": "violated with two threads, counterexample schedules given; holds for one thread"
  },
  {
   "property": "C51",
   "status": "partial",
   "theorems": [
    "QtPb.C51_never_serialized_violated",
    "QtPb.C51_never_read_violated"
   ],
   "note": "violated for every schema with a repeated bool field"
  },
  {
   "property": "C31",
   "status": "proved",
   "theorems": [
    "QtPb.Http2.C31_frame",
    "QtPb.Http2.C31_size",
    "QtPb.Http2.C31_unambiguous"
   ],
   "note": ""
  },
  {
   "property": "C32",
   "status": "partial",
   "theorems": [
    "QtPb.Http2.C32_reassembly_partial",
    "QtPb.Http2.C32_complete_partial",
    "QtPb.Http2.C32_short_chunk_violated",
    "QtPb.Http2.C32_lost_header_violated",
    "QtPb.Http2.C32_empty_message_violated",
    "QtPb.Http2.C32_wrong_size_violated"
   ],
   "note": "proved for all messages and all chunkings that do not cut within 5 bytes behind a frame; counterexamples for the other chunkings"
  },
  {
   "property": "C33",
   "status": "proved",
   "theorems": [
    "QtPb.Http2.C33_network_error",
    "QtPb.Http2.C33_kind",
    "QtPb.Http2.C33_server_status",
    "QtPb.Http2.C33_no_header",
    "QtPb.Http2.C33_data_only_ok",
    "QtPb.Http2.C33_malformed_header"
   ],
   "note": "a status header that is no decimal number counts as Ok (C33_malformed_header)"
  },
  {
   "property": "C34",
   "status": "partial",
   "theorems": [
    "QtPb.Call.C34_channel_once",
    "QtPb.Call.C34_client_error_once",
    "QtPb.Call.C34_emits",
    "QtPb.Call.C34_total_partial",
    "QtPb.Call.C34_delivers",
    "QtPb.Call.C34_late_abort_violated"
   ],
   "note": "abort() on a call that is over emits a further error, counterexample given; otherwise at most one signal"
  },
  {
   "property": "C35",
   "status": "proved",
   "theorems": [
    "QtPb.Call.C35_status",
    "QtPb.Call.C35_error_signal",
    "QtPb.Call.C35_invalid_field",
    "QtPb.Call.C35_cut_off"
   ],
   "note": ""
  },
  {
   "property": "C52",
   "status": "partial",
   "theorems": [
    "QtPb.Http2.C52_terminates_partial",
    "QtPb.Http2.C52_negative_length_violated"
   ],
   "note": "a length of 2^31 or more in a frame makes the channel loop for ever or reads nonsense; proved for all other input"
  },
  {
   "property": "C53",
   "status": "partial",
   "theorems": [
    "QtPb.Call.C53_reported_once_partial",
    "QtPb.Call.C53_ok_iff",
    "QtPb.Call.C53_serialize_violated"
   ],
   "note": "exceptions thrown while serializing the argument escape; otherwise proved"
  },
  {
   "property": "C36",
   "status": "partial",
   "theorems": [
    "QtPb.Stream.C36_one_open",
    "QtPb.Stream.C36_shared",
    "QtPb.Stream.C36_new",
    "QtPb.Stream.C36_calls",
    "QtPb.Stream.C36_order",
    "QtPb.Stream.C36_delivered",
    "QtPb.Stream.C36_single_request",
    "QtPb.Stream.C36_handlers_partial",
    "QtPb.Stream.C36_handler_subscribes_violated",
    "QtPb.Stream.C36_two_running_violated"
   ],
   "note": "a handler that subscribes to its own stream invalidates the loop over the handlers; a stream aborted while it waits to be restarted can run beside its successor; otherwise proved"
  },
  {
   "property": "C37",
   "status": "partial",
   "theorems": [
    "QtPb.Stream.C37_forgotten",
    "QtPb.Stream.C37_stopped_running_partial",
    "QtPb.Stream.C37_stopped_dropped_partial",
    "QtPb.Stream.C37_retry",
    "QtPb.Stream.C37_restart_violated",
    "QtPb.Stream.C37_native_late_violated"
   ],
   "note": "a stream aborted while it waits to be restarted is restarted if the user keeps a reference; the native channel delivers posted messages after an abort"
  },
  {
   "property": "C38",
   "status": "partial",
   "theorems": [
    "QtPb.Stream.C38_attach_partial",
    "QtPb.Stream.C38_other_thread_partial",
    "QtPb.Stream.C38_only_attach",
    "QtPb.Stream.C38_two_streams_violated",
    "QtPb.Stream.C38_client_thread_violated"
   ],
   "note": "with two or more active streams attachChannel is undefined behaviour; the thread compared is the channel's"
  },
  {
   "property": "C40",
   "status": "partial",
   "theorems": [
    "QtPb.Stream.C40_http2_partial",
    "QtPb.Stream.C40_native_violated",
    "QtPb.Stream.C40_native_stuck"
   ],
   "note": "holds over HTTP/2; the native channel never emits finished and the stream stays in the client's table"
  },
  {
   "property": "C46",
   "status": "partial",
   "theorems": [
    "QtPb.Timestamp.C46_roundtrip",
    "QtPb.Timestamp.C46_instant_partial",
    "QtPb.Timestamp.C46_instant_violated",
    "QtPb.Timestamp.C46_normal_partial",
    "QtPb.Timestamp.C46_read_partial",
    "QtPb.Timestamp.C46_overflow_violated"
   ],
   "note": "the round trip holds; the nanos written are off by a factor 1000, so the instant is wrong unless it is a whole second; other producers' timestamps are read wrongly, counterexamples given"
  },
  {
   "property": "C48",
   "status": "partial",
   "theorems": [
    "QtPb.QmlList.C48_list_partial",
    "QtPb.QmlList.C48_twice_violated",
    "QtPb.QmlList.C48_index_violated"
   ],
   "note": "holds for histories with indexes in range that append no object twice; counterexamples for the rest"
  },
  {
   "property": "C49",
   "status": "proved",
   "theorems": [
    "QtPb.Cred.C49_either_order",
    "QtPb.Cred.C49_compiles_iff",
    "QtPb.Cred.C49_commutes",
    "QtPb.Cred.C49_https",
    "QtPb.Cred.C49_ssl",
    "QtPb.Cred.C49_plain",
    "QtPb.Cred.C49_both",
    "QtPb.Cred.C49_same_kind"
   ],
   "note": ""
  },
  {
   "property": "C54",
   "status": "partial",
   "theorems": [
    "QtPb.Cred.C54_headers",
    "QtPb.Cred.C54_names",
    "QtPb.Cred.C54_user_password",
    "QtPb.Cred.C54_null_password",
    "QtPb.Cred.C54_order_violated"
   ],
   "note": "a null password is sent as no header; credentials whose names differ only in case overwrite each other"
  },
  {
   "property": "C39",
   "status": "partial",
   "theorems": [
    "QtPb.Quick.C39_running_iff_partial",
    "QtPb.Quick.C39_complete_partial",
    "QtPb.Quick.C39_enable",
    "QtPb.Quick.C39_change_violated",
    "QtPb.Quick.C39_shared_violated",
    "QtPb.Quick.C39_destroyed_violated"
   ],
   "note": "a subscription runs exactly while the item is enabled and complete, with the current values, as long as no client or argument object is destroyed; changing a value while it runs disables the item instead of subscribing again; items with equal subscriptions stop each other"
  },
  {
   "property": "C47",
   "status": "partial",
   "theorems": [
    "QtPb.Json.C47_document_partial",
    "QtPb.Json.C47_integers_injective",
    "QtPb.Json.C47_base64",
    "QtPb.Json.C47_quote_violated",
    "QtPb.Json.C47_injection_violated",
    "QtPb.Json.C47_empty_message_violated",
    "QtPb.Json.C47_bool_list_violated",
    "QtPb.Json.C47_nan_violated",
    "QtPb.Json.C47_enum_violated",
    "QtPb.Json.C47_recursive_violated"
   ],
   "note": "serializing half; proved for messages whose texts need no escaping, with finite numbers and named enumeration values; counterexamples for quotes in texts, types without fields, repeated bool, NaN and recursive types. Reading JSON rests on a library that is not part of the repository."
  },
  {
   "property": "C45",
   "status": "partial",
   "theorems": [
    "QtPb.Qt.C45_convert_roundtrip_partial",
    "QtPb.Qt.C45_wire_roundtrip_partial",
    "QtPb.Qt.C45_plusZero_small",
    "QtPb.Qt.C45_null_time_violated",
    "QtPb.Qt.C45_utc_violated",
    "QtPb.Qt.C45_color_violated",
    "QtPb.Qt.C45_rect_edge_violated",
    "QtPb.Qt.C45_polygon_null_violated"
   ],
   "note": "all modelled types, by conversion and over the wire (-0.0 arrives as 0.0); counterexamples for null times, date-times outside the local zone, colours that are not 8 bit RGB, rectangles that end at the last coordinate and null polygon points. QUrl and QImage are not modelled: they are parsers and codecs of Qt."
  },
  {
   "property": "C41",
   "status": "proved",
   "theorems": [
    "QtPb.Gen.C41_table",
    "QtPb.Gen.C41_unambiguous",
    "QtPb.Gen.C41_signal_ambiguous"
   ],
   "note": "a message with a field whose name is another field's name plus Changed gets a class with two methods of one name (it does not compile); the table is right for every message"
  },
  {
   "property": "C42",
   "status": "partial",
   "theorems": [
    "QtPb.Gen.C42_split_join",
    "QtPb.Gen.C42_isNested",
    "QtPb.Gen.C42_message_partial",
    "QtPb.Gen.C42_enum_partial",
    "QtPb.Gen.C42_map",
    "QtPb.Gen.C42_global_enum",
    "QtPb.Gen.C42_lookup",
    "QtPb.Gen.C42_lower_violated",
    "QtPb.Gen.C42_shadow_violated",
    "QtPb.Gen.C42_inner_enum_violated",
    "QtPb.Gen.C42_deep_enum_violated"
   ],
   "note": "splitting and joining proved; the printed names are proved to denote the type for capitalised containers; counterexamples for containers in small letters, shadowed names, enumerations of the enclosing message and enumerations of nested messages"
  },
  {
   "property": "C43",
   "status": "partial",
   "theorems": [
    "QtPb.Gen.C43_flags",
    "QtPb.Gen.C43_extra_last_partial",
    "QtPb.Gen.C43_extra_violated",
    "QtPb.Gen.C43_twice_violated"
   ],
   "note": "flags proved in every order; EXTRA_NAMESPACE works only as the last option, otherwise it takes the rest of the string"
  },
  {
   "property": "C44",
   "status": "partial",
   "theorems": [
    "QtPb.Gen.C44_passes_agree",
    "QtPb.Gen.C44_never_twice",
    "QtPb.Gen.C44_exact",
    "QtPb.Gen.C44_once_partial",
    "QtPb.Gen.C44_unused_violated",
    "QtPb.Gen.C44_cpp_name",
    "QtPb.Gen.C44_cpp_distinct",
    "QtPb.Gen.C44_capital_violated"
   ],
   "note": "never twice is proved; a nested message that no field of its container uses gets no class if the container has fields"
  },
  {
   "property": "C55",
   "status": "partial",
   "theorems": [
    "QtPb.Gen.C55_names_partial",
    "QtPb.Gen.C55_data_name_violated"
   ],
   "note": "a field called like a repeated message field plus Data gives two properties of one name; all other schemas are proved"
  },
  {
   "property": "C56",
   "status": "partial",
   "theorems": [
    "QtPb.C56_assign_partial",
    "QtPb.C56_construct",
    "QtPb.C56_self",
    "QtPb.C56_signal_partial",
    "QtPb.C56_signal_only_partial",
    "QtPb.C56_enum_signal_violated",
    "QtPb.C56_source_signal_violated",
    "QtPb.C56_message_map_violated"
   ],
   "note": "contents: proved for construction and self moves, for assignment when maps of messages inside sub-messages have the same keys or different sizes; enumerations change without a signal; the source signals numbers that were 0 already"
  },
  {
   "property": "C57",
   "status": "partial",
   "theorems": [
    "QtPb.Life.C57_safe_partial",
    "QtPb.Life.C57_not_dangling_partial",
    "QtPb.Life.C57_no_leak_partial",
    "QtPb.Life.C57_keeps_partial",
    "QtPb.Life.C57_shared_violated",
    "QtPb.Life.C57_lost_violated",
    "QtPb.Life.C57_no_qml_leak_violated",
    "QtPb.Life.C57_no_qml_never_deleted"
   ],
   "note": "safe for all histories in which the automatically created sub-message of one message is not set in another one (then the first may keep a dangling pointer); no leak with QML; without QML nothing is ever deleted"
  },
  {
   "property": "C58",
   "status": "partial",
   "theorems": [
    "QtPb.Gen.C58_written_once",
    "QtPb.Gen.C58_case_violated",
    "QtPb.Gen.C58_client_name_violated",
    "QtPb.Gen.C58_field_type_partial",
    "QtPb.Gen.C58_nested_type_partial",
    "QtPb.Gen.C58_no_broken_include_partial",
    "QtPb.Gen.C58_class",
    "QtPb.Gen.C58_map_class",
    "QtPb.Gen.C58_global_enum_partial",
    "QtPb.Gen.C58_global_enum_violated",
    "QtPb.Gen.C58_enum_package_violated",
    "QtPb.Gen.C58_nested_repeated_violated",
    "QtPb.Gen.C58_hidden_violated",
    "QtPb.Gen.C58_no_folder_violated",
    "QtPb.Gen.C58_message_source",
    "QtPb.Gen.C58_client_source_violated",
    "QtPb.Gen.C58_client_types_partial",
    "QtPb.Gen.C58_client_nested_violated"
   ],
   "note": "when two outputs are one file is characterised exactly; types of fields proved with FOLDER unless hidden; negations: the source file of a client never includes its header, enumerations outside of messages after a field of nested type, enumerations of other packages, repeated fields of nested messages, nested types in services"
  },
  {
   "property": "C59",
   "status": "partial",
   "theorems": [
    "QtPb.Gen.C59_headers",
    "QtPb.Gen.C59_fails",
    "QtPb.Gen.C59_own_header_partial",
    "QtPb.Gen.C59_own_header_violated",
    "QtPb.Gen.C59_import_partial",
    "QtPb.Gen.C59_import_directory_violated",
    "QtPb.Gen.C59_import_services_violated",
    "QtPb.Gen.C59_grpc_name_violated",
    "QtPb.Gen.C59_client_header_partial",
    "QtPb.Gen.C59_client_types_partial",
    "QtPb.Gen.C59_client_qt_violated"
   ],
   "note": "imports and the types of methods of clients are proved for files in the directory their header is written to; negations for other directories, for imports without messages, for hidden headers and for x.proto next to x_grpc.proto"
  },
  {
   "property": "C60",
   "status": "partial",
   "theorems": [
    "QtPb.Gen.C60_defined",
    "QtPb.Gen.C60_requests",
    "QtPb.Gen.C60_complete",
    "QtPb.Gen.C60_overloads",
    "QtPb.Gen.C60_hidden_partial",
    "QtPb.Gen.C60_types_partial",
    "QtPb.Gen.C60_hidden_violated",
    "QtPb.Gen.C60_overloads_violated",
    "QtPb.Gen.C60_stream_name_violated",
    "QtPb.Gen.C60_client_stream_violated",
    "QtPb.Gen.C60_lower_type_violated"
   ],
   "note": "paths, types of arguments and answers and definitions are proved for all services; when signatures repeat or base functions are hidden is characterised exactly, with witnesses; streams of arguments are ignored; messages with small first letters are named wrongly"
  },
  {
   "property": "C61",
   "status": "partial",
   "theorems": [
    "QtPb.Gen.C61_initial_partial",
    "QtPb.Gen.C61_parameters_partial",
    "QtPb.Gen.C61_overloads_partial",
    "QtPb.Gen.C61_defined_partial",
    "QtPb.Gen.C61_parent_violated",
    "QtPb.Gen.C61_self_violated",
    "QtPb.Gen.C61_enum_name_violated",
    "QtPb.Gen.C61_qt_list_violated",
    "QtPb.Gen.C61_qt_list_undefined_violated"
   ],
   "note": "initial values are proved for all messages whose enumerations start with a capital constant; clashes of parameters, constructors and definitions are characterised exactly, with witnesses: a field called parent, a first field of the own type, a repeated field of a Qt type"
  },
  {
   "property": "C62",
   "status": "partial",
   "theorems": [
    "QtPb.Gen.C62_capital",
    "QtPb.Gen.C62_methods",
    "QtPb.Gen.C62_member",
    "QtPb.Gen.C62_getter_partial",
    "QtPb.Gen.C62_function_partial",
    "QtPb.Gen.C62_capital_identifier",
    "QtPb.Gen.C62_getter_identifier_partial",
    "QtPb.Gen.C62_digit_violated",
    "QtPb.Gen.C62_getter_violated",
    "QtPb.Gen.C62_function_violated",
    "QtPb.Gen.C62_package_violated"
   ],
   "note": "classes, enumerations, constants, members, setters and signals are proved never to be words of C++; getters and functions of clients are exactly if the schema uses such a word, and namespaces can be, with witnesses"
  },
  {
   "property": "C63",
   "status": "partial",
   "theorems": [
    "QtPb.Gen.C63_types_partial",
    "QtPb.Gen.C63_types_capital_partial",
    "QtPb.Gen.C63_own_partial",
    "QtPb.Gen.C63_numbers",
    "QtPb.Gen.C63_enum_numbers",
    "QtPb.Gen.C63_methods_partial",
    "QtPb.Gen.C63_members_partial",
    "QtPb.Gen.C63_fixed_partial",
    "QtPb.Gen.C63_members_violated",
    "QtPb.Gen.C63_fixed_violated",
    "QtPb.Gen.C63_case_violated",
    "QtPb.Gen.C63_repeated_violated",
    "QtPb.Gen.C63_own_violated"
   ],
   "note": "when names repeat is characterised exactly for types and constants, the own name and fixed members; distinctness is proved for capitalised names without reserved endings; witnesses for each way the code lets names clash"
  },
  {
   "property": "C64",
   "status": "partial",
   "theorems": [
    "QtPb.Json.C64_reads_partial",
    "QtPb.Json.C64_escape_violated",
    "QtPb.Json.C64_number_violated",
    "QtPb.Json.C64_nan_violated",
    "QtPb.Json.C64_enum_violated",
    "QtPb.Json.C64_type_violated",
    "QtPb.Json.C64_bool_list_violated",
    "QtPb.Json.C64_bool_keys_violated",
    "QtPb.Json.C64_null_name_violated"
   ],
   "note": "documents are read correctly for message types without repeated bool and bool map keys, if the only escape sequence used is that of the quote and floating point numbers are finite; the JSON library is assumed to read JSON; bad values are not rejected (witnesses)"
  },
  {
   "property": "C65",
   "status": "partial",
   "theorems": [
    "QtPb.Json.C65_roundtrip_partial",
    "QtPb.Json.C65_digits_violated"
   ],
   "note": "proved for messages whose texts need no escaping, whose numbers survive Qt's printing, with named enumeration values, without null list entries, repeated bool, bool map keys and message types without fields; the messages outside this are those of the C47 and C64 witnesses"
  },
  {
   "property": "C66",
   "status": "partial",
   "theorems": [
    "QtPb.Json.C66_typed",
    "QtPb.Json.C66_returns",
    "QtPb.Json.C66_target",
    "QtPb.Json.C66_untouched",
    "QtPb.Json.C66_unknown",
    "QtPb.Json.C66_null_entry_violated"
   ],
   "note": "everything but the comparison: an empty text for a message in a map is read as a null pointer, which the comparison dereferences"
  },
  {
   "property": "C67",
   "status": "partial",
   "theorems": [
    "QtPb.C67_usual_partial",
    "QtPb.C67_target_partial",
    "QtPb.C67_unpacked_violated",
    "QtPb.C67_unpacked_garbage_violated",
    "QtPb.C67_merge_violated",
    "QtPb.C67_wire_type_violated",
    "QtPb.C67_entry_violated"
   ],
   "note": "proved for the encodings that encoders produce by default (Usual): any order, unknown fields, packed numbers and singular sub-messages in one record each, records with the wire type of their field; the library misreads unpacked numbers, sub-messages in two records, records of another wire type and extra fields in map entries (witnesses)"
  },
  {
   "property": "C68",
   "status": "partial",
   "theorems": [
    "QtPb.Replies.C68_safe_partial",
    "QtPb.Replies.C68_freed",
    "QtPb.Replies.C68_client_first_violated",
    "QtPb.Replies.C68_callback_leak_violated"
   ],
   "note": "proved for users that destroy the client after the replies they hold; the client's destructor deletes replies the user still holds; replies of the methods with callbacks are kept by their own connection until the receiver or the client is destroyed"
  },
  {
   "property": "C69",
   "status": "partial",
   "theorems": [
    "QtPb.Replies.C69_answer",
    "QtPb.Replies.C69_failure_partial",
    "QtPb.Replies.C69_quiet",
    "QtPb.Replies.C69_error_violated",
    "QtPb.Replies.C69_no_channel_violated",
    "QtPb.Replies.C69_qml_no_channel_violated"
   ],
   "note": "answers: proved for all methods with callbacks; failures: proved for the QML methods; the method with a C++ callback is told nothing about failures, and without a channel the QML methods dereference a null pointer"
  },
  {
   "property": "C70",
   "status": "partial",
   "theorems": [
    "QtPb.Native.C70_once",
    "QtPb.Native.C70_no_thread_left",
    "QtPb.Native.C70_delivers",
    "QtPb.Native.C70_aborted",
    "QtPb.Native.C70_safe_partial",
    "QtPb.Native.C70_channel_gone_violated",
    "QtPb.Native.C70_late_abort_violated"
   ],
   "note": "safety is proved for channels that live until the thread has begun its call; a channel destroyed right after the call is used by the thread, and aborting after the answer clears the data and emits a second signal"
  },
  {
   "property": "C71",
   "status": "partial",
   "theorems": [
    "QtPb.Native.C71_native_partial",
    "QtPb.Native.C71_returns",
    "QtPb.Native.C71_http2_partial",
    "QtPb.Native.C71_returns_http2",
    "QtPb.Native.C71_quit_native_violated",
    "QtPb.Native.C71_quit_http2_violated"
   ],
   "note": "proved when the application does not quit and the channel is not destroyed meanwhile; if it quits, the HTTP/2 channel returns Ok with whatever has arrived, and the native channel reads what its thread is writing"
  },
  {
   "property": "C72",
   "status": "partial",
   "theorems": [
    "QtPb.Pre.C72_multi_partial",
    "QtPb.Pre.C72_single_partial",
    "QtPb.Pre.C72_globalenums_violated",
    "QtPb.Pre.C72_enums_only_violated",
    "QtPb.Pre.C72_false_name_violated",
    "QtPb.Pre.C72_bracket_violated",
    "QtPb.Pre.C72_comment_violated",
    "QtPb.Pre.C72_braces_violated",
    "QtPb.Pre.C72_one_line_violated"
   ],
   "note": "proved for texts in which every declaration begins its own line, braces come at most one of a kind per line, and square brackets are balanced on each line; outside of that, and for globalenums.cpp, the list is wrong"
  },
  {
   "property": "C73",
   "status": "partial",
   "theorems": [
    "QtPb.Pre.C73_partial",
    "QtPb.Pre.C73_namespace_violated",
    "QtPb.Pre.C73_false_word_violated"
   ],
   "note": "proved for namespaces without an option word between colons, without an equals sign, and that are not words for false; otherwise an option is switched on or the namespace is lost"
  },
  {
   "property": "C74",
   "status": "partial",
   "theorems": [
    "QtPb.Handlers.C74_returns_partial",
    "QtPb.Handlers.C74_value_partial",
    "QtPb.Handlers.C74_abort_partial",
    "QtPb.Handlers.C74_handler_violated",
    "QtPb.Handlers.C74_abort_violated",
    "QtPb.ReadLock.C74_program_partial",
    "QtPb.ReadLock.C74_decodable",
    "QtPb.ReadLock.C74_stored",
    "QtPb.ReadLock.C74_reread_violated",
    "QtPb.ReadLock.C74_aborts_reading_violated",
    "QtPb.ReadLock.C74_loop_violated"
   ],
   "note": "proved if the client's error slots only read operations that hold messages and the slots of operations abort nothing; a slot that reads or aborts the operation whose data is bad waits for ever for the lock held by read, and a slot that aborts a running call calls itself for ever; in a second model with handlers at every depth, every program returns whose handlers leave the operation alone that is being read (C74_program_partial), and a message that arrives in an event loop started by a handler of a failed read waits for ever (C74_loop_violated)"
  },
  {
   "property": "C75",
   "status": "proved",
   "theorems": [
    "QtPb.Convert.C75_offered",
    "QtPb.Convert.C75_exact",
    "QtPb.Convert.C75_roundtrip",
    "QtPb.Convert.C75_double_has",
    "QtPb.Convert.C75_nearest",
    "QtPb.Convert.C75_fraction"
   ],
   "note": "integers, double and text; which conversions exist, numbers the target has are kept, nearest double, fraction cut off"
  },
  {
   "property": "C76",
   "status": "partial",
   "theorems": [
    "QtPb.EndToEnd.C76_answer_partial",
    "QtPb.EndToEnd.C76_refused_partial",
    "QtPb.EndToEnd.C76_ok_partial",
    "QtPb.EndToEnd.C76_compressed_violated"
   ],
   "note": "proved for servers that read requests with the reference decoder and answer in any usual encoding; missing: what C12, C19, C20, C67 exclude; violated for compressed answers, which the requests declare acceptable"
  },
  {
   "property": "C77",
   "status": "partial",
   "theorems": [
    "QtPb.EndToEnd.C77_stream_partial"
   ],
   "note": "proved for pieces that are cut at harmless places (C32) and message types without maps of messages; otherwise as C76"
  },
  {
   "property": "C78",
   "status": "partial",
   "theorems": [
    "QtPb.Convert.C75_exact",
    "QtPb.Convert.C78_double_violated",
    "QtPb.Convert.C78_wraps_violated",
    "QtPb.Convert.C78_precision_violated"
   ],
   "note": "violated for every number out of range: it becomes another number, or undefined behaviour when it comes from double; a change of the number is excluded only if the target has it (C75_exact)"
  },
  {
   "property": "C79",
   "status": "proved",
   "theorems": [
    "QtPb.C79_form",
    "QtPb.C79_usual"
   ],
   "note": "all messages; a list of strings, bytes or messages and a map have a record per entry"
  },
  {
   "property": "C80",
   "status": "partial",
   "theorems": [
    "QtPb.C80_one_outcome",
    "QtPb.C80_format",
    "QtPb.C80_accepts",
    "QtPb.C80_rejects",
    "QtPb.C80_accepted_partial",
    "QtPb.C80_rejected_partial",
    "QtPb.C80_new_target"
   ],
   "note": "every input in which no length of 2^31 or more is met; undefined reads of cut off inputs are the subject of C16"
  },
  {
   "property": "C81",
   "status": "partial",
   "theorems": [
    "QtPb.Gen.Reg.C81_classes",
    "QtPb.Gen.Reg.C81_right",
    "QtPb.Gen.Reg.C81_exactly",
    "QtPb.Gen.Reg.C81_order",
    "QtPb.Gen.Reg.C81_handlers_partial",
    "QtPb.Gen.Reg.C81_neighbour_enum_violated",
    "QtPb.Gen.Reg.C81_enum_map_violated",
    "QtPb.Gen.Reg.C81_qt_map_violated"
   ],
   "note": "exact set of fields with handlers; no handler for an enum declared in a message without a field of this type, for maps of Qt types, lists of Qt types and lists of bool"
  },
  {
   "property": "C82",
   "status": "partial",
   "theorems": [
    "QtPb.Gen.Comments.C82_exactly",
    "QtPb.Gen.Comments.C82_comment_partial",
    "QtPb.Gen.Comments.C82_nothing",
    "QtPb.Gen.Comments.C82_text",
    "QtPb.Gen.Comments.C82_triple_slash_violated",
    "QtPb.Gen.Comments.C82_end_violated",
    "QtPb.Gen.Comments.C82_dollar_violated",
    "QtPb.Gen.Comments.C82_two_dollars_violated"
   ],
   "note": "exact set of comments without a dollar sign that stay comments; a second line introduced by three slashes, an end of comment, or a dollar sign break the output"
  },
  {
   "property": "C83",
   "status": "partial",
   "theorems": [
    "QtPb.StatusValue.C83_exactly",
    "QtPb.StatusValue.C83_value_partial",
    "QtPb.StatusValue.C83_memory",
    "QtPb.StatusValue.C83_assign_violated",
    "QtPb.StatusValue.C83_equality_violated"
   ],
   "note": "exact set of histories with undefined behaviour, all answers right otherwise; copying into an object whose contents were moved away dereferences null; equality ignores the message"
  },
  {
   "property": "C84",
   "status": "partial",
   "theorems": [
    "QtPb.Gen.C84_one",
    "QtPb.Gen.C84_usable_exactly",
    "QtPb.Gen.C84_distinct_exactly",
    "QtPb.Gen.C84_class_partial",
    "QtPb.Gen.C84_package_violated",
    "QtPb.Gen.C84_extra_violated",
    "QtPb.Gen.C84_underscore_violated",
    "QtPb.Gen.C84_reserved_violated"
   ],
   "note": "exact set of types that can be used, and of types with the same name; files without a package, extra namespaces of several parts, names with a leading underscore and reserved words in packages give types that QML cannot name"
  },
  {
   "property": "C85",
   "status": "partial",
   "theorems": [
    "QtPb.EndToEnd.Native.C85_answer_partial",
    "QtPb.EndToEnd.Native.C85_refused_partial",
    "QtPb.EndToEnd.Native.C85_ok_partial",
    "QtPb.EndToEnd.Native.C85_channels_partial",
    "QtPb.EndToEnd.Native.C85_stream_partial",
    "QtPb.EndToEnd.Native.C85_broken"
   ],
   "note": "the exclusions of C76: cyclic singular sub-messages, repeated bools, NaN, maps of messages in used reply objects, unusual encodings, applications that quit during the call"
  },
  {
   "property": "C86",
   "status": "partial",
   "theorems": [
    "QtPb.Qt.Peer.C86_schema",
    "QtPb.Qt.Peer.C86_message",
    "QtPb.Qt.Peer.C86_written_partial",
    "QtPb.Qt.Peer.C86_read_partial",
    "QtPb.Qt.Peer.C86_interop_partial",
    "QtPb.Qt.Peer.C86_wide_rect_violated"
   ],
   "note": "rectangles wider than 2^31-1 (undefined, C86_wide_rect_violated); reading: values that do not survive a round trip (C45) and unusual encodings (C67); QUrl and QImage are in C118"
  },
  {
   "property": "C87",
   "status": "partial",
   "theorems": [
    "QtPb.Stream.C87_before",
    "QtPb.Stream.C87_stops",
    "QtPb.Stream.C87_silent",
    "QtPb.Stream.C87_safe_partial",
    "QtPb.Stream.C87_channel",
    "QtPb.Stream.C87_reference_violated",
    "QtPb.Stream.C87_scope_violated",
    "QtPb.Stream.C87_native_channel_violated"
   ],
   "note": "streams are children of the client: pointers kept by the user dangle after its destruction, and dropping them is undefined (C87_reference_violated, C87_scope_violated); if only the client holds a native channel its worker threads use it after its end (C87_native_channel_violated)"
  },
  {
   "property": "C88",
   "status": "partial",
   "theorems": [
    "QtPb.Threads.C88_once",
    "QtPb.Threads.C88_result",
    "QtPb.Threads.C88_progress_partial",
    "QtPb.Threads.C88_work",
    "QtPb.Threads.C88_held_up",
    "QtPb.Threads.C88_deadlock_violated",
    "QtPb.Threads.C88_nested_violated"
   ],
   "note": "two threads that call clients of each other wait forever (C88_deadlock_violated); a call does not return before the calls made while it waited (C88_held_up, C88_nested_violated); without calls in a circle everything returns once the server has answered (C88_progress_partial, C88_work)"
  },
  {
   "property": "C89",
   "status": "partial",
   "theorems": [
    "QtPb.Subscribe.C89_once",
    "QtPb.Subscribe.C89_own_partial",
    "QtPb.Subscribe.C89_other_partial",
    "QtPb.Subscribe.C89_lost_violated",
    "QtPb.Subscribe.C89_between_violated",
    "QtPb.Subscribe.C89_abort_violated"
   ],
   "note": "a call made in another thread may be answered before its caller has subscribed; then no callback ever runs (C89_lost_violated, C89_between_violated); an abort while a signal is queued changes the data of the answer (C89_abort_violated); otherwise the property holds (C89_once, C89_own_partial, C89_other_partial)"
  },
  {
   "property": "C90",
   "status": "partial",
   "theorems": [
    "QtPb.StreamRead.C90_handlers",
    "QtPb.StreamRead.C90_notified",
    "QtPb.StreamRead.C90_last",
    "QtPb.StreamRead.C90_own_partial",
    "QtPb.StreamRead.C90_other_partial",
    "QtPb.StreamRead.C90_skipped_violated",
    "QtPb.StreamRead.C90_nested_violated"
   ],
   "note": "handlers get every message (C90_handlers) and readers end with the last one (C90_last); a reader in another thread that is slower than the stream reads some messages twice and others never (C90_skipped_violated), and so does one in the thread of the stream if a handler starts an event loop (C90_nested_violated)"
  },
  {
   "property": "C91",
   "status": "partial",
   "theorems": [
    "QtPb.Races.C91_streams",
    "QtPb.Races.C91_partial",
    "QtPb.Races.C91_attach_violated",
    "QtPb.Races.C91_read_violated",
    "QtPb.Races.C91_elsewhere_violated"
   ],
   "note": "no data race if the channel is attached before other threads are started and never replaced (C91_partial); the table of streams is free of races as long as channels are attached in the thread of the client (C91_streams). Replacing the channel races with trySerialize and read in other threads (C91_attach_violated, C91_read_violated)"
  },
  {
   "property": "C92",
   "status": "partial",
   "theorems": [
    "QtPb.Channels.C92_safe_partial",
    "QtPb.Channels.C92_result_partial",
    "QtPb.Channels.C92_genuine",
    "QtPb.Channels.C92_lost_violated",
    "QtPb.Channels.C92_async_violated",
    "QtPb.Channels.C92_dangling_violated",
    "QtPb.Channels.C92_timer_violated",
    "QtPb.Channels.C92_native_violated"
   ],
   "note": "replacing a channel that nobody else holds deletes its requests: the calls never end (C92_lost_violated, C92_async_violated) or use what was deleted (C92_dangling_violated, C92_native_violated); the timer of a request that has ended deletes it under a synchronous call that has not returned (C92_timer_violated); programs that do neither are safe (C92_safe_partial, C92_result_partial)"
  },
  {
   "property": "C93",
   "status": "partial",
   "theorems": [
    "QtPb.C93_exactly",
    "QtPb.C93_seen_partial",
    "QtPb.C93_read_partial",
    "QtPb.C93_always_violated",
    "QtPb.C93_hidden_violated",
    "QtPb.C93_default_violated",
    "QtPb.C93_two_violated",
    "QtPb.C93_read_violated"
   ],
   "note": "the generator does not look at oneof: members of fixed width and messages are always written, so that a peer sees them set (C93_always_violated) and the members before them never (C93_hidden_violated); a member set to its default is not seen (C93_default_violated); setting a second member does not unset the first (C93_two_violated, C93_read_violated); for oneofs without such members and values other than the default, the claim holds (C93_seen_partial, C93_read_partial)"
  },
  {
   "property": "C94",
   "status": "partial",
   "theorems": [
    "QtPb.Gen.Text.C94_header_classes_partial",
    "QtPb.Gen.Text.C94_header_declared_partial",
    "QtPb.Gen.Text.C94_header_properties_partial",
    "QtPb.Gen.Text.C94_header_enums_partial",
    "QtPb.Gen.Text.C94_header_metatypes_partial",
    "QtPb.Gen.Text.C94_metatypes_of_classes",
    "QtPb.Gen.Text.C94_header_members_partial",
    "QtPb.Gen.Text.C94_header_objects_partial",
    "QtPb.Gen.Text.C94_header_moc_partial",
    "QtPb.Gen.Text.C94_source_partial",
    "QtPb.Gen.Text.C94_client_header_partial",
    "QtPb.Gen.Text.C94_client_source_partial",
    "QtPb.Gen.Text.C94_json_name_violated",
    "QtPb.Gen.Text.C94_keyword_violated",
    "QtPb.Gen.Text.C94_comment_violated"
   ],
   "note": "for all schemas with plain names and comments, of any size and depth, in single-file mode; names that are keywords of C++, JSON names with quotes and comments with the end of a comment break the generated files (C94_keyword_violated, C94_json_name_violated, C94_comment_violated)"
  },
  {
   "property": "C95",
   "status": "partial",
   "theorems": [
    "QtPb.Gen.Text.C95_functions_partial",
    "QtPb.Gen.Text.C95_constructors_partial",
    "QtPb.Gen.Text.C95_ordering_partial",
    "QtPb.Gen.Text.C95_statements_partial",
    "QtPb.Gen.Text.C95_registration_partial",
    "QtPb.Gen.Text.C95_declared_partial",
    "QtPb.Gen.Text.C95_index_partial",
    "QtPb.Gen.Text.C95_clients_partial"
   ],
   "note": "for all schemas with plain names (as in C94), of any size and depth, in single-file mode; bodies of copies, moves, comparisons and setters are not executed here (their meaning is modelled in Objects, Move and Setters)"
  },
  {
   "property": "C96",
   "status": "partial",
   "theorems": [
    "QtPb.Gen.Text.C96_class_partial",
    "QtPb.Gen.Text.C96_program_partial",
    "QtPb.Gen.Text.C96_answer_right",
    "QtPb.Gen.Text.C96_compare_partial",
    "QtPb.Gen.Text.C96_assign_partial",
    "QtPb.Gen.Text.C96_assign_sound",
    "QtPb.Gen.Text.C96_copy",
    "QtPb.Gen.Text.C96_move_assign_partial",
    "QtPb.Gen.Text.C96_move_construct",
    "QtPb.Gen.Text.C96_setter",
    "QtPb.Gen.Text.C96_setter_change_partial",
    "QtPb.Gen.Text.C96_message_setter_partial",
    "QtPb.Gen.Text.C96_getter",
    "QtPb.Gen.Text.C96_message_getter",
    "QtPb.Gen.Text.C96_set_get",
    "QtPb.Gen.Text.C96_pointer_getter",
    "QtPb.Gen.Text.C96_pointer_setter",
    "QtPb.Gen.Text.C96_alias",
    "QtPb.Gen.Text.C96_construct_partial",
    "QtPb.Gen.Text.C96_default",
    "QtPb.Gen.Text.C96_copy_constructor",
    "QtPb.Gen.Text.C96_move_constructor",
    "QtPb.Gen.Text.C96_construct_copies_partial",
    "QtPb.Gen.Text.C96_program_copies_partial",
    "QtPb.Gen.Text.C96_parent_violated",
    "QtPb.Gen.Text.C96_message_map_violated",
    "QtPb.Gen.Text.C96_enum_signal_violated"
   ],
   "note": "for all schemas with plain names (as in C94) and distinct setters, of any size and depth; maps of messages make == and = dereference null pointers, enumerations are moved without a signal; a field called \"parent\" gives a constructor two parameters of one name; fields of Qt types are not covered; what the library and Qt do with members (==, moves of containers, lazy pointers) is modelled, not read from text"
  },
  {
   "property": "C97",
   "status": "partial",
   "theorems": [
    "QtPb.Gen.Text.C97_once_partial",
    "QtPb.Gen.Text.C97_twice_violated",
    "QtPb.Gen.Text.C97_enum_violated"
   ],
   "note": "for all files with plain names that are apart; violated for every message with two fields of one of its own enumerations: the type of the enumeration is declared twice; the guards around types of maps are outside of the positive theorem (types of maps are set aside)"
  },
  {
   "property": "C98",
   "status": "partial",
   "theorems": [
    "QtPb.Waiting.C98_sync_partial",
    "QtPb.Waiting.C98_read_partial",
    "QtPb.Waiting.C98_update",
    "QtPb.Waiting.C98_refused",
    "QtPb.Waiting.C98_object_violated",
    "QtPb.Waiting.C98_client_violated",
    "QtPb.Waiting.C98_format_violated",
    "QtPb.Waiting.C98_read_format_violated"
   ],
   "note": "proved for handlers that destroy neither the client nor the object and attach only channels with the same serializer, to any depth of nested calls; the negations show that each of these is needed: a destroyed object is dereferenced as null, a destroyed client is used, the answer of the old channel is read with the serializer of the new one; channels that are destroyed are in C92"
  },
  {
   "property": "C99",
   "status": "partial",
   "theorems": [
    "QtPb.Gen.C99_single_partial",
    "QtPb.Gen.C99_multi_partial",
    "QtPb.Gen.C99_single_read",
    "QtPb.Gen.C99_multi_read",
    "QtPb.Gen.Text.C99_single_text",
    "QtPb.Gen.Text.C99_multi_text",
    "QtPb.Gen.C99_later_enum_violated",
    "QtPb.Gen.C99_outer_enum_violated",
    "QtPb.Gen.C99_own_list_violated",
    "QtPb.Gen.C99_sibling_violated",
    "QtPb.Gen.C99_extra_namespace_violated",
    "QtPb.Gen.C99_mutual_lists_violated"
   ],
   "note": "proved for projects whose enumerations are not in a message that comes later and, in multi-file mode, whose list types and enumerations come from headers that do not include the header that uses them; the order is the one in the printed text (list types, which are declared by using, are not seen by the reader of the text); the negations, for all such projects or with a witness, show each exception: an enumeration of a later or enclosing message, and in multi-file mode a repeated field of the own type, a nested message that comes later, mutual use with an extra namespace, and mutual lists"
  },
  {
   "property": "C100",
   "status": "partial",
   "theorems": [
    "QtPb.Gen.Text.C100_headers_partial",
    "QtPb.Gen.Text.C100_sources_partial",
    "QtPb.Gen.Text.C100_class_partial",
    "QtPb.Gen.Text.C100_program_partial",
    "QtPb.Gen.Text.C100_program_copy_partial",
    "QtPb.Gen.Text.C100_exists_partial",
    "QtPb.Gen.Text.C100_enums_partial",
    "QtPb.Gen.Text.C100_clients_partial"
   ],
   "note": "proved of the printed text: headers and sources in one mode are made of the same texts as in the other, what reads a class from them gets the same, and programs assembled from multi-file output satisfy what C96 assumes of single-file output; partial because server printers and comments in schemas are not covered and because whether the include directives of multi-file mode open the right headers is C58 and C99 (which are violated in cases)"
  },
  {
   "property": "C101",
   "status": "partial",
   "theorems": [
    "QtPb.Gen.Text.C101_methods_partial",
    "QtPb.Gen.Text.C101_each_partial",
    "QtPb.Gen.Text.C101_script_partial",
    "QtPb.Gen.Text.C101_object_partial",
    "QtPb.Gen.Text.C101_no_channel_violated",
    "QtPb.Gen.Text.C101_stream_null_violated",
    "QtPb.Gen.Text.C101_callback_violated"
   ],
   "note": "proved of the bodies in the printed text, read and run by an interpreter of the few kinds of statements that stand there, for all services, arguments and histories between the call and the answer; the negations show for all methods that without a channel a call from QML uses a null pointer, that the function for streams in QML does not look whether there is an argument, and that the function with a callback never tells of failures; partial because requests of a message QJSValue outside of packages are left out, and destruction of the engine or the client before the answer is not followed"
  },
  {
   "property": "C102",
   "status": "partial",
   "theorems": [
    "QtPb.Heap.C102_independent_partial",
    "QtPb.Heap.C102_copy_partial",
    "QtPb.Heap.C102_assign_partial",
    "QtPb.Heap.C102_defined_partial",
    "QtPb.Heap.C102_shared_violated",
    "QtPb.Heap.C102_child_violated",
    "QtPb.Heap.C102_parent_violated",
    "QtPb.Heap.C102_element_violated"
   ],
   "note": "proved for all programs over message objects in memory: a variable changes only by statements that write to it along sub-messages, copies and assignments between variables give the values of the source at every depth and are defined; the negations show that elements of repeated fields are shared by every copy, that a = a.x() takes the wrong value, that a.x() = a never returns, and that a = *a.kids()[0] reads freed memory; partial for these, because maps of messages are left out, and because an assignment between variables may go on for ever if a list holds, in the end, the message it is in"
  },
  {
   "property": "C103",
   "status": "partial",
   "theorems": [
    "QtPb.Convert.C103_exact_partial",
    "QtPb.Convert.C103_back_partial",
    "QtPb.Convert.C103_range_violated",
    "QtPb.Convert.C103_junk_violated",
    "QtPb.Convert.C103_missing_violated"
   ],
   "note": "proved for int32, fixed32 and sfixed32 and all texts of integers that they have; the negations show that the text of any other integer is undefined behaviour, that a text that is no number gives 0, and that the 64 bit types take no texts; texts with a fraction are left out"
  },
  {
   "property": "C104",
   "status": "partial",
   "theorems": [
    "QtPb.Meta.C104_program_partial",
    "QtPb.Meta.C104_codec_partial",
    "QtPb.Meta.C104_wire_partial",
    "QtPb.Meta.C104_getters_partial",
    "QtPb.Meta.C104_properties_partial",
    "QtPb.Meta.C104_name_violated"
   ],
   "note": "proved for the text of generated files with plain names; the negation is about a field called like the list of another field, where two properties have one name and the serializer, which looks for names, takes one of them for both fields"
  },
  {
   "property": "C105",
   "status": "partial",
   "theorems": [
    "QtPb.MetaJson.C105_program_partial",
    "QtPb.MetaJson.C105_codec_partial",
    "QtPb.MetaJson.C105_document_partial",
    "QtPb.MetaJson.C105_reads_partial",
    "QtPb.MetaJson.C105_properties_partial",
    "QtPb.MetaJson.C105_name_violated"
   ],
   "note": "proved for the text of generated files with plain names and for the messages and documents of C47, C64 and C65; the negation is about a field called like the list of another field, where two properties have one name and the serializer, which looks for names, takes one of them for both fields"
  },
  {
   "property": "C106",
   "status": "partial",
   "theorems": [
    "QtPb.Whole.C106_program_partial",
    "QtPb.Whole.C106_same_partial",
    "QtPb.Whole.C106_writes_partial",
    "QtPb.Whole.C106_call_partial",
    "QtPb.Whole.C106_refused_partial",
    "QtPb.Whole.C106_stream_partial",
    "QtPb.Whole.Native.C106_native_same_partial",
    "QtPb.Whole.Native.C106_native_call_partial",
    "QtPb.Whole.Native.C106_native_refused_partial",
    "QtPb.Whole.Native.C106_native_stream_partial",
    "QtPb.Whole.Async.C106_async_partial",
    "QtPb.Whole.Async.C106_callback_partial",
    "QtPb.Whole.Async.C106_script_partial",
    "QtPb.Whole.Async.C106_object_partial",
    "QtPb.Whole.Native.Async.C106_native_async_partial",
    "QtPb.Whole.Native.Async.C106_native_callback_partial",
    "QtPb.Whole.Native.Async.C106_native_script_partial",
    "QtPb.Whole.Native.Async.C106_native_object_partial"
   ],
   "note": "proved over both channels with the binary serializer for blocking calls, for streams with a reply object and for the asynchronous calls of C++ and QML in any session of calls, for files with plain names and the messages, servers and reply objects of C76, C77 and C104; argument and reply classes must have the names that the .proto file gives the messages"
  },
  {
   "property": "C107",
   "status": "partial",
   "theorems": [
    "QtPb.Gen.Reg.Json.C107_write_exactly",
    "QtPb.Gen.Reg.Json.C107_read_exactly",
    "QtPb.Gen.Reg.Json.C107_handlers_partial",
    "QtPb.Gen.Reg.Json.C107_right",
    "QtPb.Gen.Reg.Json.C107_order",
    "QtPb.Gen.Reg.Json.C107_unsupported",
    "QtPb.Gen.Reg.Json.C107_neighbour_enum_violated",
    "QtPb.Gen.Reg.Json.C107_bools_violated",
    "QtPb.Gen.Reg.Json.C107_qt_map_violated"
   ],
   "note": "exact set of fields that are written and read, the same as in C81; enums of messages without a field of this type, maps and lists of Qt types and lists of bool are written as bare text and not read"
  },
  {
   "property": "C108",
   "status": "partial",
   "theorems": [
    "QtPb.EndToEnd.Async.C108_own",
    "QtPb.EndToEnd.Async.C108_answer_partial",
    "QtPb.EndToEnd.Async.C108_refused",
    "QtPb.EndToEnd.Async.C108_timeout",
    "QtPb.EndToEnd.Async.C108_aborted",
    "QtPb.EndToEnd.Async.C108_finished",
    "QtPb.EndToEnd.Native.Async.C108_native_own",
    "QtPb.EndToEnd.Native.Async.C108_native_answer_partial",
    "QtPb.EndToEnd.Native.Async.C108_native_refused"
   ],
   "note": "the answer part is limited to the messages of C76 (clean arguments, usual encodings); the rest is for all histories. An abort after the end is C34_late_abort_violated"
  },
  {
   "property": "C109",
   "status": "partial",
   "theorems": [
    "QtPb.StreamBytes.C109_history",
    "QtPb.StreamBytes.C109_own_partial",
    "QtPb.StreamBytes.C109_messages_partial",
    "QtPb.StreamBytes.C109_defined_partial",
    "QtPb.StreamBytes.C109_read",
    "QtPb.StreamBytes.C109_heard",
    "QtPb.StreamBytes.C109_alone",
    "QtPb.StreamBytes.C109_answer_partial",
    "QtPb.StreamBytes.C109_native_answer_partial",
    "QtPb.StreamBytes.C109_soiled_violated"
   ],
   "note": "a reply at the address of an aborted one, whose message was unfinished, is read from the stale bytes: C109_soiled_violated (abort does not remove the record of the unfinished message). The cuts are those of C32, the messages of the answer part those of C77 and C85. C109_history, C109_heard and C109_alone are for all histories"
  },
  {
   "property": "C110",
   "status": "partial",
   "theorems": [
    "QtPb.GoList.C110_multi_partial",
    "QtPb.GoList.C110_single_partial",
    "QtPb.GoList.C110_fails_iff",
    "QtPb.GoList.C110_unread",
    "QtPb.GoList.C110_indented_violated",
    "QtPb.GoList.C110_nested_violated",
    "QtPb.GoList.C110_package_violated",
    "QtPb.GoList.C110_comment_violated",
    "QtPb.GoList.C110_enums_violated"
   ],
   "note": "the lists are right for files in which declarations, and nothing else that looks so, begin in the first column of lines; globalenums.h is never listed. The five negations show what happens otherwise. C110_fails_iff and C110_unread are for all arguments and texts"
  },
  {
   "property": "C111",
   "status": "partial",
   "theorems": [
    "QtPb.ListModel.C111_view_partial",
    "QtPb.ListModel.C111_lifetime",
    "QtPb.ListModel.C111_add",
    "QtPb.ListModel.C111_distinct",
    "QtPb.ListModel.C111_rows",
    "QtPb.ListModel.C111_data",
    "QtPb.ListModel.C111_find_partial",
    "QtPb.ListModel.C111_silent_violated",
    "QtPb.ListModel.C111_beyond_violated",
    "QtPb.ListModel.C111_twice_violated",
    "QtPb.ListModel.C111_early_violated",
    "QtPb.ListModel.C111_null_violated"
   ],
   "note": "views: for histories without remove of a pointer (announced to nobody) and of rows that do not exist; lifetimes: for all histories that keep the rules of shared pointers; roles: once roleNames was called; finding: in lists without null pointers. The negations show what happens otherwise"
  },
  {
   "property": "C112",
   "status": "partial",
   "theorems": [
    "QtPb.ChatServer.C112_send_partial",
    "QtPb.ChatServer.C112_subscribe_partial",
    "QtPb.ChatServer.C112_sender",
    "QtPb.ChatServer.C112_shown",
    "QtPb.ChatServer.C112_current_partial",
    "QtPb.ChatServer.C112_defined_partial",
    "QtPb.ChatServer.C112_longer_violated",
    "QtPb.ChatServer.C112_memory_violated",
    "QtPb.ChatServer.C112_early_violated",
    "QtPb.ChatServer.C112_missed_violated",
    "QtPb.ChatServer.C112_finished_violated"
   ],
   "note": "who is let in: for names of 5 and hashes of 32 bytes, other lengths are cut or filled from memory (C112_longer_violated, C112_memory_violated); what is shown: exact for all histories (C112_shown), and the whole chat unless a message comes before the next handler is made (C112_missed_violated); messages before the first handler are undefined (C112_early_violated); refused subscribers are written to (C112_finished_violated)"
  },
  {
   "property": "C113",
   "status": "partial",
   "theorems": [
    "QtPb.StreamReenter.C113_abort",
    "QtPb.StreamReenter.C113_twice_violated",
    "QtPb.StreamReenter.C113_wait_violated"
   ],
   "note": "handlers that abort: for all bytes. Handlers that wait while bytes of their stream arrive: false for every message, it is passed on again (C113_twice_violated), and going on is undefined if complete messages arrive (C113_wait_violated). That QNetworkReply emits readyRead in such an event loop is how Qt 5 is implemented, the documentation of QIODevice says otherwise"
  },
  {
   "property": "C114",
   "status": "partial",
   "theorems": [
    "QtPb.PropsInside.C114_answer_http2_partial",
    "QtPb.PropsInside.C114_answer_native_partial",
    "QtPb.PropsInside.C114_message_partial",
    "QtPb.PropsInside.C114_end_partial",
    "QtPb.PropsInside.C114_failure_partial",
    "QtPb.PropsInside.C114_abort_partial",
    "QtPb.PropsInside.C114_failing_partial",
    "QtPb.PropsInside.C114_afterwards_partial",
    "QtPb.PropsInside.C114_violated",
    "QtPb.PropsInside.C114_where_violated"
   ],
   "note": "false in general (C114_violated, C114_where_violated); the exact conditions are proved for every event, both channels, every list of slots and handlers. One call or stream of the client is looked at, in the thread of the client"
  },
  {
   "property": "C115",
   "status": "partial",
   "theorems": [
    "QtPb.AddressServer.C115_stored",
    "QtPb.AddressServer.C115_add_partial",
    "QtPb.AddressServer.C115_shown",
    "QtPb.AddressServer.C115_told",
    "QtPb.AddressServer.C115_current_partial",
    "QtPb.AddressServer.C115_status_partial",
    "QtPb.AddressServer.C115_invited",
    "QtPb.AddressServer.C115_defined_partial",
    "QtPb.AddressServer.C115_call_partial",
    "QtPb.AddressServer.C115_active_partial",
    "QtPb.AddressServer.C115_client",
    "QtPb.AddressServer.C115_engine",
    "QtPb.AddressServer.C115_early_violated",
    "QtPb.AddressServer.C115_missed_violated",
    "QtPb.AddressServer.C115_missedStatus_violated",
    "QtPb.AddressServer.C115_unheard_violated",
    "QtPb.AddressServer.C115_crossed_violated"
   ],
   "note": "false in general (the five theorems named _violated): calls before the handlers exist are undefined, changes between a subscription and the next handler are missed, a call nobody listens to is answered as invalid, and the end of a call ends the next one too. Proved: what is stored and shown in all histories, and the exact condition of undefined behaviour. grpc++ and overlapping calls (data races) are not modelled"
  },
  {
   "property": "C116",
   "status": "partial",
   "theorems": [
    "QtPb.ChatEngine.C116_defined",
    "QtPb.ChatEngine.C116_shown",
    "QtPb.ChatEngine.C116_name_partial",
    "QtPb.ChatEngine.C116_sent_partial",
    "QtPb.ChatEngine.C116_listens",
    "QtPb.ChatEngine.C116_retries",
    "QtPb.ChatEngine.C116_server_partial",
    "QtPb.ChatEngine.C116_users",
    "QtPb.ChatEngine.C116_crossed_violated",
    "QtPb.ChatEngine.C116_longer_violated"
   ],
   "note": "false in general (the two theorems named _violated): the functors of the engine keep a stream that was aborted, so its request is repeated over the channel of the next login, and its list is shown under the name of the login that failed; a longer name is cut off by the server. Proved for all histories without a login while a request is still to be repeated; the other parts for all histories. The refused user is not told: authFailed is declared and never emitted"
  },
  {
   "property": "C117",
   "status": "partial",
   "theorems": [
    "QtPb.EchoEngine.C117_sent_partial",
    "QtPb.EchoEngine.C117_shown_partial",
    "QtPb.EchoEngine.C117_alone_partial",
    "QtPb.EchoEngine.C117_server",
    "QtPb.EchoEngine.C117_overlap_violated",
    "QtPb.EchoEngine.C117_typing_violated",
    "QtPb.EchoEngine.C117_null_violated"
   ],
   "note": "false in general (the theorems named _violated): a text entered while a request waits is answered inside that request, so the response is left with the answer to the older one; the input field is cleared when an answer comes, and what was typed meanwhile is lost; a null request object is dereferenced. Proved for all sessions for what is sent and shown, for sessions with one request at a time for the last text; texts that survive UTF-8, below 2 GB; servers that answer every request"
  },
  {
   "property": "C118",
   "status": "partial",
   "theorems": [
    "QtPb.Media.C118_schema",
    "QtPb.Media.C118_written_partial",
    "QtPb.Media.C118_url_partial",
    "QtPb.Media.C118_image_partial",
    "QtPb.Media.C118_wire_roundtrip_partial",
    "QtPb.Media.C118_resent_violated"
   ],
   "note": "the last sentence is false (C118_resent_violated): images are always written in PNG format, with every codec. The others are proved for all Qt parsers and codecs, for messages of less than 2 GB, texts that survive UTF-8 and names of formats in ASCII; other encodings than usual ones (C67) are left out"
  },
  {
   "property": "C119",
   "status": "partial",
   "theorems": [
    "QtPb.Qt.C119_roundtrip_partial",
    "QtPb.Qt.C119_read_partial",
    "QtPb.Qt.C119_written_partial",
    "QtPb.Qt.C119_digits_violated"
   ],
   "note": "false for vectors, matrices and quaternions with more than 6 significant digits (C119_digits_violated). Proved for the values of C45 whose floating point numbers are finite and are read by Qt as it prints them, up to the sign of zeros; escape sequences other than quotes are left out (C64)"
  },
  {
   "property": "C120",
   "status": "partial",
   "theorems": [
    "QtPb.Qt.C120_read_partial",
    "QtPb.Qt.C120_absent",
    "QtPb.Qt.C120_absent_not_empty",
    "QtPb.Qt.C120_last",
    "QtPb.Qt.C120_written_partial",
    "QtPb.Qt.C120_roundtrip_partial",
    "QtPb.Qt.C120_equal",
    "QtPb.Qt.C120_returns_partial",
    "QtPb.Qt.C120_tiny_point_violated",
    "QtPb.Qt.C120_new_object_violated"
   ],
   "note": "false for points that Qt takes for equal to the value of a new object, and for null times (C120_tiny_point_violated, C120_new_object_violated). Proved for the values of C45, with Qt's == as a parameter; lists and maps of Qt's types, QUrl, QImage, malformed messages and the assignment to the target of deserialize are left out"
  },
  {
   "property": "C121",
   "status": "partial",
   "theorems": [
    "QtPb.Qt.C121_assign",
    "QtPb.Qt.C121_assign_returns_partial",
    "QtPb.Qt.C121_copy",
    "QtPb.Qt.C121_equal",
    "QtPb.Qt.C121_assign_equal",
    "QtPb.Qt.C121_copy_equal",
    "QtPb.Qt.C121_copy_stable",
    "QtPb.Qt.C121_target_partial",
    "QtPb.Qt.C121_roundtrip_partial",
    "QtPb.Qt.C121_copy_violated"
   ],
   "note": "a copy of a point that Qt takes for equal to (0, 0) is (0, 0) (C121_copy_violated). Qt's == is a parameter, reflexive where the theorem says so; assignment to a used object is proved to return without maps of messages inside of message fields; change signals and moves are left out"
  },
  {
   "property": "C122",
   "status": "partial",
   "theorems": [
    "QtPb.Qt.C122_read_partial",
    "QtPb.Qt.C122_written_partial",
    "QtPb.Qt.C122_malformed_partial",
    "QtPb.Qt.C122_roundtrip_partial",
    "QtPb.Qt.C122_returns_partial",
    "QtPb.Qt.C122_unset_violated"
   ],
   "note": "an unset sub-message whose class has a QTime arrives with midnight in it instead of a null time (C122_unset_violated). Proved for the values of C45, with Qt's == as a parameter; writing is proved to return unless the classes of fields without Qt values form a cycle or there is a repeated bool; an unset member of a class that contains itself, maps with such messages as values, lists of Qt's types and errors in fields of other types are left out"
  },
  {
   "property": "C123",
   "status": "partial",
   "theorems": [
    "QtPb.Qt.C123_equal",
    "QtPb.Qt.C123_equal_returns_partial",
    "QtPb.Qt.C123_assign",
    "QtPb.Qt.C123_assign_returns_partial",
    "QtPb.Qt.C123_assign_equal",
    "QtPb.Qt.C123_copy_partial",
    "QtPb.Qt.C123_target_partial",
    "QtPb.Qt.C123_roundtrip_partial",
    "QtPb.Qt.C123_copy_violated"
   ],
   "note": "a copy of a message whose sub-message holds a point such as (1e-13, 0), which Qt takes for equal to (0, 0), has that sub-message unset (C123_copy_violated). Comparison and assignment are proved right whenever they return, and to return unless there are maps with message values; Qt's == is a parameter, assumed symmetric; moves, change signals and the sharing of list elements between copy and original are left out"
  },
  {
   "property": "C124",
   "status": "partial",
   "theorems": [
    "QtPb.Qt.C124_assign_partial",
    "QtPb.Qt.C124_construct_partial",
    "QtPb.Qt.C124_construct_exact",
    "QtPb.Qt.C124_self_partial",
    "QtPb.Qt.C124_signal_partial",
    "QtPb.Qt.C124_construct_violated"
   ],
   "note": "a point such as (1e-13, 0), which Qt takes for equal to (0, 0), in a sub-message does not reach an object constructed by move (C124_construct_violated), while one in a field of the object itself does (C124_construct_exact). Maps with message values are left out, and so are signals of fields of other types (C56) and of sub-messages; what is left in moved-from values is a parameter"
  },
  {
   "property": "C125",
   "status": "partial",
   "theorems": [
    "QtPb.Qt.C125_document_partial",
    "QtPb.Qt.C125_read_partial",
    "QtPb.Qt.C125_roundtrip_partial",
    "QtPb.Qt.C125_empty_violated",
    "QtPb.Qt.C125_recursive_violated"
   ],
   "note": "an object of a class without fields, anywhere in the message, makes the text no JSON (C125_empty_violated); of a class that leads back to itself through singular fields no object is written (C125_recursive_violated); texts with quotes, backslashes or control characters and numbers that are not read as printed are excluded as in C47, C65 and C119; maps with message values that contain Qt values are left out"
  },
  {
   "property": "C126",
   "status": "partial",
   "theorems": [
    "QtPb.Qt.C126_shaped",
    "QtPb.Qt.C126_returns_partial",
    "QtPb.Qt.C126_only_rects_partial",
    "QtPb.Qt.C126_untouched",
    "QtPb.Qt.C126_overflow_violated",
    "QtPb.Qt.C126_far_violated"
   ],
   "note": "for classes with a QRect the statement is false: a text with a rectangle that ends beyond the range of int overflows a signed integer (C126_overflow_violated); C126_only_rects_partial proves that nothing else is undefined; maps with message values that contain Qt values are left out"
  },
  {
   "property": "C127",
   "status": "partial",
   "theorems": [
    "QtPb.Media.C127_written_partial",
    "QtPb.Media.C127_read_partial",
    "QtPb.Media.C127_roundtrip_partial",
    "QtPb.Media.C127_returns"
   ],
   "note": "URLs whose text has quotes, backslashes or control characters or does not survive UTF-8 are left out of what is written, names of formats that are not ASCII of what is read; an image that is read in another format than PNG is written as PNG, as in C118"
  },
  {
   "property": "C128",
   "status": "partial",
   "theorems": [
    "QtPb.Qt.C128_shaped_partial",
    "QtPb.Qt.C128_terminates_partial",
    "QtPb.Qt.C128_budget_partial",
    "QtPb.Qt.C128_only_partial",
    "QtPb.Qt.C128_exactly_partial",
    "QtPb.Qt.C128_endless_violated",
    "QtPb.Qt.C128_breaks_violated",
    "QtPb.Qt.C128_overflow_violated"
   ],
   "note": "the last sentence is false of the code: an unknown field with a negative length makes reading endless, a QRect that ends beyond the range of int overflows, and values that are cut off are read beyond the end of the bytes, as in C16; for bytes without negative lengths the inputs that are undefined are characterised exactly, and everything else is accepted or rejected"
  }
 ]
}