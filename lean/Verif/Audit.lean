import Verif.PropsScalar
import Verif.PropsMessage
import Verif.PropsRecords
import Verif.PropsEq
import Verif.PropsSetters
import Verif.PropsBytes
import Verif.PropsIterator
import Verif.PropsReference
import Verif.PropsRegistry
import Verif.PropsTypeReg
import Verif.PropsPlugins
import Verif.PropsBoolList
import Verif.PropsHttp2
import Verif.PropsCall
import Verif.PropsStream
import Verif.PropsTimestamp
import Verif.PropsCredentials
import Verif.PropsQmlList
import Verif.PropsQuickStream
import Verif.PropsJson
import Verif.PropsQtTypes
import Verif.PropsOptions
import Verif.PropsGenTree
import Verif.PropsGenClass
import Verif.PropsGenNames
import Verif.PropsCompare
import Verif.PropsMove
import Verif.PropsLifetime
import Verif.PropsGenFiles
import Verif.PropsGenIncludes
import Verif.PropsGenSingle
import Verif.PropsGenSingleClient
import Verif.PropsGenClient
import Verif.PropsGenCtor
import Verif.PropsGenWords
import Verif.PropsGenScope
import Verif.PropsJsonRead
import Verif.PropsJsonSafe
import Verif.PropsInterop
import Verif.PropsReplies
import Verif.PropsNative
import Verif.PropsPre
import Verif.PropsHandlers
import Verif.PropsConvert
import Verif.PropsEndToEnd
import Verif.PropsOwn
import Verif.PropsReceive
import Verif.PropsRegister
import Verif.PropsComments
import Verif.PropsStatusValue
import Verif.PropsQml
import Verif.PropsEndToEndNative
import Verif.PropsQtPeers
import Verif.PropsClientEnd
import Verif.PropsThreads
import Verif.PropsSubscribe
import Verif.PropsStreamRead
import Verif.PropsReadLock
import Verif.PropsRaces
import Verif.PropsChannels
import Verif.PropsPresence
import Verif.PropsGenPrint
import Verif.PropsGenDefs
import Verif.PropsGenRun
import Verif.PropsGenGet
import Verif.PropsGenCtorRun
import Verif.PropsGenMeta
import Verif.PropsWaiting
import Verif.PropsGenOrder
import Verif.PropsGenOrderMulti
import Verif.PropsGenOrderWrong
import Verif.PropsGenOrderDemo
import Verif.PropsGenModes
import Verif.PropsGenOrderText
import Verif.PropsGenClientRun
import Verif.PropsHeap
import Verif.PropsQuickText
import Verif.PropsMeta
import Verif.PropsMetaJson
import Verif.PropsWhole
import Verif.PropsWholeNative
import Verif.PropsJsonHandlers
import Verif.PropsEndToEndAsync
import Verif.PropsEndToEndAsyncNative
import Verif.PropsWholeAsync
import Verif.PropsWholeAsyncNative
import Verif.PropsStreamBytes
import Verif.PropsStreamBytesNative
import Verif.PropsGoList
import Verif.PropsListModel
import Verif.PropsChatServer
import Verif.PropsStreamReenter
import Verif.PropsInside
import Verif.PropsAddressServer
import Verif.PropsChatEngine
import Verif.PropsEchoEngine
import Verif.PropsQtMedia
import Verif.PropsQtJson
import Verif.PropsQtFields
import Verif.PropsQtObjects
import Verif.PropsQtNested
import Verif.PropsQtNestedObjects
import Verif.PropsQtNestedMove
import Verif.PropsQtNestedJson
import Verif.PropsQtNestedJsonSafe
import Verif.PropsQtNestedJsonRects
import Verif.PropsQtMediaJson
import Verif.PropsQtNestedBytes
/-
The axioms of every theorem named in MANIFEST.json, printed during the build.
-/
#print axioms QtPb.C02_varint_canonical
#print axioms QtPb.C02_varint_roundtrip
#print axioms QtPb.C02_singular_field
#print axioms QtPb.C03_sint32_wire
#print axioms QtPb.C03_sint64_wire
#print axioms QtPb.C03_sint_roundtrip
#print axioms QtPb.C03_sint32_decode
#print axioms QtPb.C04_fixed32_bytes
#print axioms QtPb.C04_fixed64_bytes
#print axioms QtPb.C04_fixed_roundtrip
#print axioms QtPb.C05_header_roundtrip
#print axioms QtPb.C05_header_bytes
#print axioms QtPb.C05_header_accept
#print axioms QtPb.C13_enum_wire
#print axioms QtPb.C13_enum_decode
#print axioms QtPb.C13_enum_list
#print axioms QtPb.C22_int32_sign_extended
#print axioms QtPb.C22_any_varint
#print axioms QtPb.C22_padding
#print axioms QtPb.C01_roundtrip
#print axioms QtPb.C01_roundtrip_exact
#print axioms QtPb.C20_serialize_terminates_partial
#print axioms QtPb.C20_recursive_diverges
#print axioms QtPb.C20_recursive_violated
#print axioms QtPb.C20_budget_independent
#print axioms QtPb.C06_absent_field
#print axioms QtPb.C06_omission
#print axioms QtPb.C06_message_parts
#print axioms QtPb.C07_unknown_skipped
#print axioms QtPb.C08_left_to_right
#print axioms QtPb.C08_target
#print axioms QtPb.C08_new_target
#print axioms QtPb.C09_field_order
#print axioms QtPb.C10_repeated
#print axioms QtPb.C11_split_violated
#print axioms QtPb.C11_last_record_wins
#print axioms QtPb.C11_concatenated_partial
#print axioms QtPb.C12_last_entry_wins
#print axioms QtPb.C12_more_entries
#print axioms QtPb.C12_roundtrip
#print axioms QtPb.C14_bad_tag
#print axioms QtPb.C14_nested
#print axioms QtPb.C15_truncated
#print axioms QtPb.C15_truncated_tag
#print axioms QtPb.C15_truncated_value
#print axioms QtPb.C15_truncated_element
#print axioms QtPb.C16_reading_partial
#print axioms QtPb.C16_exactly_partial
#print axioms QtPb.C16_only_cut_partial
#print axioms QtPb.C16_described_partial
#print axioms QtPb.C16_overrun_violated
#print axioms QtPb.C17_terminates_partial
#print axioms QtPb.C17_budget_partial
#print axioms QtPb.C17_reading_partial
#print axioms QtPb.C17_skip_violated
#print axioms QtPb.C18_failed_partial
#print axioms QtPb.C18_prefix_partial
#print axioms QtPb.C18_decoded_typed
#print axioms QtPb.C18_new_target_partial
#print axioms QtPb.C18_reading_partial
#print axioms QtPb.C18_negative_length_violated
#print axioms QtPb.C18_message_map_violated
#print axioms QtPb.C19_forgets_partial
#print axioms QtPb.C19_new_target
#print axioms QtPb.C19_target_same_keys_partial
#print axioms QtPb.C19_negative_zero_violated
#print axioms QtPb.C19_message_map_violated
#print axioms QtPb.C24_scalars
#print axioms QtPb.C24_keys
#print axioms QtPb.C24_notNaN
#print axioms QtPb.C24_answer_right
#print axioms QtPb.C24_terminates
#print axioms QtPb.C24_decides_partial
#print axioms QtPb.C24_refl
#print axioms QtPb.C24_symm
#print axioms QtPb.C24_trans
#print axioms QtPb.C24_unset_equals_default
#print axioms QtPb.C24_not_equal
#print axioms QtPb.C24_same_keys_partial
#print axioms QtPb.C24_with_default
#print axioms QtPb.C24_with_itself
#print axioms QtPb.C24_no_maps_comparable
#print axioms QtPb.C24_message_map_violated
#print axioms QtPb.C24_null_entry_violated
#print axioms QtPb.C25_copy
#print axioms QtPb.C25_assign_partial
#print axioms QtPb.C25_assign_sound
#print axioms QtPb.C25_assign_same_keys_partial
#print axioms QtPb.C25_assign_to_new
#print axioms QtPb.C25_assign_to_itself
#print axioms QtPb.C25_message_map_violated
#print axioms QtPb.C26_write
#print axioms QtPb.C26_history
#print axioms QtPb.C26_reads_last_write
#print axioms QtPb.C26_write_returns_partial
#print axioms QtPb.C26_history_returns_partial
#print axioms QtPb.C26_write_returns_same_keys_partial
#print axioms QtPb.C26_message_map_violated
#print axioms QtPb.SelfCheck.C23_in_range_partial
#print axioms QtPb.SelfCheck.C23_throws_iff
#print axioms QtPb.SelfCheck.C23_failed_not_copied
#print axioms QtPb.SelfCheck.C23_after_exception_violated
#print axioms QtPb.SelfCheck.C23_overflow_violated
#print axioms QtPb.SelfCheck.C23_codec_iterator
#print axioms QtPb.C21_reference_exact
#print axioms QtPb.C21_reference
#print axioms QtPb.Registry.C27_exclusive
#print axioms QtPb.Registry.C27_never_torn
#print axioms QtPb.Registry.C27_linearizable
#print axioms QtPb.Registry.C27_last_registration
#print axioms QtPb.Registry.C27_unregistered
#print axioms QtPb.Registry.C28_no_deadlock
#print axioms QtPb.Registry.C28_bounded
#print axioms QtPb.Registry.C28_own_steps
#print axioms QtPb.Registry.C28_all_returned
#print axioms QtPb.TypeReg.C29_once
#print axioms QtPb.TypeReg.C29_returns
#print axioms QtPb.TypeReg.C29_late_violated
#print axioms QtPb.Plugins.C30_answers
#print axioms QtPb.Plugins.C30_lookup_harmless
#print axioms QtPb.Plugins.C30_default
#print axioms QtPb.Plugins.C30_first_stays
#print axioms QtPb.Plugins.C30_unknown_plugin_violated
#print axioms QtPb.TypeReg.C50_single_partial
#print axioms QtPb.TypeReg.C50_early_return_violated
#print axioms QtPb.TypeReg.C50_twice_violated
#print axioms QtPb.C51_never_serialized_violated
#print axioms QtPb.C51_never_read_violated
#print axioms QtPb.Http2.C31_frame
#print axioms QtPb.Http2.C31_size
#print axioms QtPb.Http2.C31_unambiguous
#print axioms QtPb.Http2.C32_reassembly_partial
#print axioms QtPb.Http2.C32_complete_partial
#print axioms QtPb.Http2.C32_short_chunk_violated
#print axioms QtPb.Http2.C32_lost_header_violated
#print axioms QtPb.Http2.C32_empty_message_violated
#print axioms QtPb.Http2.C32_wrong_size_violated
#print axioms QtPb.Http2.C33_network_error
#print axioms QtPb.Http2.C33_kind
#print axioms QtPb.Http2.C33_server_status
#print axioms QtPb.Http2.C33_no_header
#print axioms QtPb.Http2.C33_data_only_ok
#print axioms QtPb.Http2.C33_malformed_header
#print axioms QtPb.Call.C34_channel_once
#print axioms QtPb.Call.C34_client_error_once
#print axioms QtPb.Call.C34_emits
#print axioms QtPb.Call.C34_total_partial
#print axioms QtPb.Call.C34_delivers
#print axioms QtPb.Call.C34_late_abort_violated
#print axioms QtPb.Call.C35_status
#print axioms QtPb.Call.C35_error_signal
#print axioms QtPb.Call.C35_invalid_field
#print axioms QtPb.Call.C35_cut_off
#print axioms QtPb.Http2.C52_terminates_partial
#print axioms QtPb.Http2.C52_negative_length_violated
#print axioms QtPb.Call.C53_reported_once_partial
#print axioms QtPb.Call.C53_ok_iff
#print axioms QtPb.Call.C53_serialize_violated
#print axioms QtPb.Stream.C36_one_open
#print axioms QtPb.Stream.C36_shared
#print axioms QtPb.Stream.C36_new
#print axioms QtPb.Stream.C36_calls
#print axioms QtPb.Stream.C36_order
#print axioms QtPb.Stream.C36_delivered
#print axioms QtPb.Stream.C36_single_request
#print axioms QtPb.Stream.C36_handlers_partial
#print axioms QtPb.Stream.C36_handler_subscribes_violated
#print axioms QtPb.Stream.C36_two_running_violated
#print axioms QtPb.Stream.C37_forgotten
#print axioms QtPb.Stream.C37_stopped_running_partial
#print axioms QtPb.Stream.C37_stopped_dropped_partial
#print axioms QtPb.Stream.C37_retry
#print axioms QtPb.Stream.C37_restart_violated
#print axioms QtPb.Stream.C37_native_late_violated
#print axioms QtPb.Stream.C38_attach_partial
#print axioms QtPb.Stream.C38_other_thread_partial
#print axioms QtPb.Stream.C38_only_attach
#print axioms QtPb.Stream.C38_two_streams_violated
#print axioms QtPb.Stream.C38_client_thread_violated
#print axioms QtPb.Stream.C40_http2_partial
#print axioms QtPb.Stream.C40_native_violated
#print axioms QtPb.Stream.C40_native_stuck
#print axioms QtPb.Timestamp.C46_roundtrip
#print axioms QtPb.Timestamp.C46_instant_partial
#print axioms QtPb.Timestamp.C46_instant_violated
#print axioms QtPb.Timestamp.C46_normal_partial
#print axioms QtPb.Timestamp.C46_read_partial
#print axioms QtPb.Timestamp.C46_overflow_violated
#print axioms QtPb.QmlList.C48_list_partial
#print axioms QtPb.QmlList.C48_twice_violated
#print axioms QtPb.QmlList.C48_index_violated
#print axioms QtPb.Cred.C49_either_order
#print axioms QtPb.Cred.C49_compiles_iff
#print axioms QtPb.Cred.C49_commutes
#print axioms QtPb.Cred.C49_https
#print axioms QtPb.Cred.C49_ssl
#print axioms QtPb.Cred.C49_plain
#print axioms QtPb.Cred.C49_both
#print axioms QtPb.Cred.C49_same_kind
#print axioms QtPb.Cred.C54_headers
#print axioms QtPb.Cred.C54_names
#print axioms QtPb.Cred.C54_user_password
#print axioms QtPb.Cred.C54_null_password
#print axioms QtPb.Cred.C54_order_violated
#print axioms QtPb.Quick.C39_running_iff_partial
#print axioms QtPb.Quick.C39_complete_partial
#print axioms QtPb.Quick.C39_enable
#print axioms QtPb.Quick.C39_change_violated
#print axioms QtPb.Quick.C39_shared_violated
#print axioms QtPb.Quick.C39_destroyed_violated
#print axioms QtPb.Json.C47_document_partial
#print axioms QtPb.Json.C47_integers_injective
#print axioms QtPb.Json.C47_base64
#print axioms QtPb.Json.C47_quote_violated
#print axioms QtPb.Json.C47_injection_violated
#print axioms QtPb.Json.C47_empty_message_violated
#print axioms QtPb.Json.C47_bool_list_violated
#print axioms QtPb.Json.C47_nan_violated
#print axioms QtPb.Json.C47_enum_violated
#print axioms QtPb.Json.C47_recursive_violated
#print axioms QtPb.Qt.C45_convert_roundtrip_partial
#print axioms QtPb.Qt.C45_wire_roundtrip_partial
#print axioms QtPb.Qt.C45_plusZero_small
#print axioms QtPb.Qt.C45_null_time_violated
#print axioms QtPb.Qt.C45_utc_violated
#print axioms QtPb.Qt.C45_color_violated
#print axioms QtPb.Qt.C45_rect_edge_violated
#print axioms QtPb.Qt.C45_polygon_null_violated
#print axioms QtPb.Gen.C41_table
#print axioms QtPb.Gen.C41_unambiguous
#print axioms QtPb.Gen.C41_signal_ambiguous
#print axioms QtPb.Gen.C42_split_join
#print axioms QtPb.Gen.C42_isNested
#print axioms QtPb.Gen.C42_message_partial
#print axioms QtPb.Gen.C42_enum_partial
#print axioms QtPb.Gen.C42_map
#print axioms QtPb.Gen.C42_global_enum
#print axioms QtPb.Gen.C42_lookup
#print axioms QtPb.Gen.C42_lower_violated
#print axioms QtPb.Gen.C42_shadow_violated
#print axioms QtPb.Gen.C42_inner_enum_violated
#print axioms QtPb.Gen.C42_deep_enum_violated
#print axioms QtPb.Gen.C43_flags
#print axioms QtPb.Gen.C43_extra_last_partial
#print axioms QtPb.Gen.C43_extra_violated
#print axioms QtPb.Gen.C43_twice_violated
#print axioms QtPb.Gen.C44_passes_agree
#print axioms QtPb.Gen.C44_never_twice
#print axioms QtPb.Gen.C44_exact
#print axioms QtPb.Gen.C44_once_partial
#print axioms QtPb.Gen.C44_unused_violated
#print axioms QtPb.Gen.C44_cpp_name
#print axioms QtPb.Gen.C44_cpp_distinct
#print axioms QtPb.Gen.C44_capital_violated
#print axioms QtPb.Gen.C55_names_partial
#print axioms QtPb.Gen.C55_data_name_violated
#print axioms QtPb.C56_assign_partial
#print axioms QtPb.C56_construct
#print axioms QtPb.C56_self
#print axioms QtPb.C56_signal_partial
#print axioms QtPb.C56_signal_only_partial
#print axioms QtPb.C56_enum_signal_violated
#print axioms QtPb.C56_source_signal_violated
#print axioms QtPb.C56_message_map_violated
#print axioms QtPb.Life.C57_safe_partial
#print axioms QtPb.Life.C57_not_dangling_partial
#print axioms QtPb.Life.C57_no_leak_partial
#print axioms QtPb.Life.C57_keeps_partial
#print axioms QtPb.Life.C57_shared_violated
#print axioms QtPb.Life.C57_lost_violated
#print axioms QtPb.Life.C57_no_qml_leak_violated
#print axioms QtPb.Life.C57_no_qml_never_deleted
#print axioms QtPb.Gen.C58_written_once
#print axioms QtPb.Gen.C58_case_violated
#print axioms QtPb.Gen.C58_client_name_violated
#print axioms QtPb.Gen.C58_field_type_partial
#print axioms QtPb.Gen.C58_nested_type_partial
#print axioms QtPb.Gen.C58_no_broken_include_partial
#print axioms QtPb.Gen.C58_class
#print axioms QtPb.Gen.C58_map_class
#print axioms QtPb.Gen.C58_global_enum_partial
#print axioms QtPb.Gen.C58_global_enum_violated
#print axioms QtPb.Gen.C58_enum_package_violated
#print axioms QtPb.Gen.C58_nested_repeated_violated
#print axioms QtPb.Gen.C58_hidden_violated
#print axioms QtPb.Gen.C58_no_folder_violated
#print axioms QtPb.Gen.C58_message_source
#print axioms QtPb.Gen.C58_client_source_violated
#print axioms QtPb.Gen.C58_client_types_partial
#print axioms QtPb.Gen.C58_client_nested_violated
#print axioms QtPb.Gen.C59_headers
#print axioms QtPb.Gen.C59_fails
#print axioms QtPb.Gen.C59_own_header_partial
#print axioms QtPb.Gen.C59_own_header_violated
#print axioms QtPb.Gen.C59_import_partial
#print axioms QtPb.Gen.C59_import_directory_violated
#print axioms QtPb.Gen.C59_import_services_violated
#print axioms QtPb.Gen.C59_grpc_name_violated
#print axioms QtPb.Gen.C59_client_header_partial
#print axioms QtPb.Gen.C59_client_types_partial
#print axioms QtPb.Gen.C59_client_qt_violated
#print axioms QtPb.Gen.C60_defined
#print axioms QtPb.Gen.C60_requests
#print axioms QtPb.Gen.C60_complete
#print axioms QtPb.Gen.C60_overloads
#print axioms QtPb.Gen.C60_hidden_partial
#print axioms QtPb.Gen.C60_types_partial
#print axioms QtPb.Gen.C60_hidden_violated
#print axioms QtPb.Gen.C60_overloads_violated
#print axioms QtPb.Gen.C60_stream_name_violated
#print axioms QtPb.Gen.C60_client_stream_violated
#print axioms QtPb.Gen.C60_lower_type_violated
#print axioms QtPb.Gen.C61_initial_partial
#print axioms QtPb.Gen.C61_parameters_partial
#print axioms QtPb.Gen.C61_overloads_partial
#print axioms QtPb.Gen.C61_defined_partial
#print axioms QtPb.Gen.C61_parent_violated
#print axioms QtPb.Gen.C61_self_violated
#print axioms QtPb.Gen.C61_enum_name_violated
#print axioms QtPb.Gen.C61_qt_list_violated
#print axioms QtPb.Gen.C61_qt_list_undefined_violated
#print axioms QtPb.Gen.C62_capital
#print axioms QtPb.Gen.C62_methods
#print axioms QtPb.Gen.C62_member
#print axioms QtPb.Gen.C62_getter_partial
#print axioms QtPb.Gen.C62_function_partial
#print axioms QtPb.Gen.C62_capital_identifier
#print axioms QtPb.Gen.C62_getter_identifier_partial
#print axioms QtPb.Gen.C62_digit_violated
#print axioms QtPb.Gen.C62_getter_violated
#print axioms QtPb.Gen.C62_function_violated
#print axioms QtPb.Gen.C62_package_violated
#print axioms QtPb.Gen.C63_types_partial
#print axioms QtPb.Gen.C63_types_capital_partial
#print axioms QtPb.Gen.C63_own_partial
#print axioms QtPb.Gen.C63_numbers
#print axioms QtPb.Gen.C63_enum_numbers
#print axioms QtPb.Gen.C63_methods_partial
#print axioms QtPb.Gen.C63_members_partial
#print axioms QtPb.Gen.C63_fixed_partial
#print axioms QtPb.Gen.C63_members_violated
#print axioms QtPb.Gen.C63_fixed_violated
#print axioms QtPb.Gen.C63_case_violated
#print axioms QtPb.Gen.C63_repeated_violated
#print axioms QtPb.Gen.C63_own_violated
#print axioms QtPb.Json.C64_reads_partial
#print axioms QtPb.Json.C64_escape_violated
#print axioms QtPb.Json.C64_number_violated
#print axioms QtPb.Json.C64_nan_violated
#print axioms QtPb.Json.C64_enum_violated
#print axioms QtPb.Json.C64_type_violated
#print axioms QtPb.Json.C64_bool_list_violated
#print axioms QtPb.Json.C64_bool_keys_violated
#print axioms QtPb.Json.C64_null_name_violated
#print axioms QtPb.Json.C65_roundtrip_partial
#print axioms QtPb.Json.C65_digits_violated
#print axioms QtPb.Json.C66_typed
#print axioms QtPb.Json.C66_returns
#print axioms QtPb.Json.C66_target
#print axioms QtPb.Json.C66_untouched
#print axioms QtPb.Json.C66_unknown
#print axioms QtPb.Json.C66_null_entry_violated
#print axioms QtPb.C67_usual_partial
#print axioms QtPb.C67_target_partial
#print axioms QtPb.C67_unpacked_violated
#print axioms QtPb.C67_unpacked_garbage_violated
#print axioms QtPb.C67_merge_violated
#print axioms QtPb.C67_wire_type_violated
#print axioms QtPb.C67_entry_violated
#print axioms QtPb.Replies.C68_safe_partial
#print axioms QtPb.Replies.C68_freed
#print axioms QtPb.Replies.C68_client_first_violated
#print axioms QtPb.Replies.C68_callback_leak_violated
#print axioms QtPb.Replies.C69_answer
#print axioms QtPb.Replies.C69_failure_partial
#print axioms QtPb.Replies.C69_quiet
#print axioms QtPb.Replies.C69_error_violated
#print axioms QtPb.Replies.C69_no_channel_violated
#print axioms QtPb.Replies.C69_qml_no_channel_violated
#print axioms QtPb.Native.C70_once
#print axioms QtPb.Native.C70_no_thread_left
#print axioms QtPb.Native.C70_delivers
#print axioms QtPb.Native.C70_aborted
#print axioms QtPb.Native.C70_safe_partial
#print axioms QtPb.Native.C70_channel_gone_violated
#print axioms QtPb.Native.C70_late_abort_violated
#print axioms QtPb.Native.C71_native_partial
#print axioms QtPb.Native.C71_returns
#print axioms QtPb.Native.C71_http2_partial
#print axioms QtPb.Native.C71_returns_http2
#print axioms QtPb.Native.C71_quit_native_violated
#print axioms QtPb.Native.C71_quit_http2_violated
#print axioms QtPb.Pre.C72_multi_partial
#print axioms QtPb.Pre.C72_single_partial
#print axioms QtPb.Pre.C72_globalenums_violated
#print axioms QtPb.Pre.C72_enums_only_violated
#print axioms QtPb.Pre.C72_false_name_violated
#print axioms QtPb.Pre.C72_bracket_violated
#print axioms QtPb.Pre.C72_comment_violated
#print axioms QtPb.Pre.C72_braces_violated
#print axioms QtPb.Pre.C72_one_line_violated
#print axioms QtPb.Pre.C73_partial
#print axioms QtPb.Pre.C73_namespace_violated
#print axioms QtPb.Pre.C73_false_word_violated
#print axioms QtPb.Handlers.C74_returns_partial
#print axioms QtPb.Handlers.C74_value_partial
#print axioms QtPb.Handlers.C74_abort_partial
#print axioms QtPb.Handlers.C74_handler_violated
#print axioms QtPb.Handlers.C74_abort_violated
#print axioms QtPb.ReadLock.C74_program_partial
#print axioms QtPb.ReadLock.C74_decodable
#print axioms QtPb.ReadLock.C74_stored
#print axioms QtPb.ReadLock.C74_reread_violated
#print axioms QtPb.ReadLock.C74_aborts_reading_violated
#print axioms QtPb.ReadLock.C74_loop_violated
#print axioms QtPb.Convert.C75_offered
#print axioms QtPb.Convert.C75_exact
#print axioms QtPb.Convert.C75_roundtrip
#print axioms QtPb.Convert.C75_double_has
#print axioms QtPb.Convert.C75_nearest
#print axioms QtPb.Convert.C75_fraction
#print axioms QtPb.EndToEnd.C76_answer_partial
#print axioms QtPb.EndToEnd.C76_refused_partial
#print axioms QtPb.EndToEnd.C76_ok_partial
#print axioms QtPb.EndToEnd.C76_compressed_violated
#print axioms QtPb.EndToEnd.C77_stream_partial
#print axioms QtPb.Convert.C78_double_violated
#print axioms QtPb.Convert.C78_wraps_violated
#print axioms QtPb.Convert.C78_precision_violated
#print axioms QtPb.C79_form
#print axioms QtPb.C79_usual
#print axioms QtPb.C80_one_outcome
#print axioms QtPb.C80_format
#print axioms QtPb.C80_accepts
#print axioms QtPb.C80_rejects
#print axioms QtPb.C80_accepted_partial
#print axioms QtPb.C80_rejected_partial
#print axioms QtPb.C80_new_target
#print axioms QtPb.Gen.Reg.C81_classes
#print axioms QtPb.Gen.Reg.C81_right
#print axioms QtPb.Gen.Reg.C81_exactly
#print axioms QtPb.Gen.Reg.C81_order
#print axioms QtPb.Gen.Reg.C81_handlers_partial
#print axioms QtPb.Gen.Reg.C81_neighbour_enum_violated
#print axioms QtPb.Gen.Reg.C81_enum_map_violated
#print axioms QtPb.Gen.Reg.C81_qt_map_violated
#print axioms QtPb.Gen.Comments.C82_exactly
#print axioms QtPb.Gen.Comments.C82_comment_partial
#print axioms QtPb.Gen.Comments.C82_nothing
#print axioms QtPb.Gen.Comments.C82_text
#print axioms QtPb.Gen.Comments.C82_triple_slash_violated
#print axioms QtPb.Gen.Comments.C82_end_violated
#print axioms QtPb.Gen.Comments.C82_dollar_violated
#print axioms QtPb.Gen.Comments.C82_two_dollars_violated
#print axioms QtPb.StatusValue.C83_exactly
#print axioms QtPb.StatusValue.C83_value_partial
#print axioms QtPb.StatusValue.C83_memory
#print axioms QtPb.StatusValue.C83_assign_violated
#print axioms QtPb.StatusValue.C83_equality_violated
#print axioms QtPb.Gen.C84_one
#print axioms QtPb.Gen.C84_usable_exactly
#print axioms QtPb.Gen.C84_distinct_exactly
#print axioms QtPb.Gen.C84_class_partial
#print axioms QtPb.Gen.C84_package_violated
#print axioms QtPb.Gen.C84_extra_violated
#print axioms QtPb.Gen.C84_underscore_violated
#print axioms QtPb.Gen.C84_reserved_violated
#print axioms QtPb.EndToEnd.Native.C85_answer_partial
#print axioms QtPb.EndToEnd.Native.C85_refused_partial
#print axioms QtPb.EndToEnd.Native.C85_ok_partial
#print axioms QtPb.EndToEnd.Native.C85_channels_partial
#print axioms QtPb.EndToEnd.Native.C85_stream_partial
#print axioms QtPb.EndToEnd.Native.C85_broken
#print axioms QtPb.Qt.Peer.C86_schema
#print axioms QtPb.Qt.Peer.C86_message
#print axioms QtPb.Qt.Peer.C86_written_partial
#print axioms QtPb.Qt.Peer.C86_read_partial
#print axioms QtPb.Qt.Peer.C86_interop_partial
#print axioms QtPb.Qt.Peer.C86_wide_rect_violated
#print axioms QtPb.Stream.C87_before
#print axioms QtPb.Stream.C87_stops
#print axioms QtPb.Stream.C87_silent
#print axioms QtPb.Stream.C87_safe_partial
#print axioms QtPb.Stream.C87_channel
#print axioms QtPb.Stream.C87_reference_violated
#print axioms QtPb.Stream.C87_scope_violated
#print axioms QtPb.Stream.C87_native_channel_violated
#print axioms QtPb.Threads.C88_once
#print axioms QtPb.Threads.C88_result
#print axioms QtPb.Threads.C88_progress_partial
#print axioms QtPb.Threads.C88_work
#print axioms QtPb.Threads.C88_held_up
#print axioms QtPb.Threads.C88_deadlock_violated
#print axioms QtPb.Threads.C88_nested_violated
#print axioms QtPb.Subscribe.C89_once
#print axioms QtPb.Subscribe.C89_own_partial
#print axioms QtPb.Subscribe.C89_other_partial
#print axioms QtPb.Subscribe.C89_lost_violated
#print axioms QtPb.Subscribe.C89_between_violated
#print axioms QtPb.Subscribe.C89_abort_violated
#print axioms QtPb.StreamRead.C90_handlers
#print axioms QtPb.StreamRead.C90_notified
#print axioms QtPb.StreamRead.C90_last
#print axioms QtPb.StreamRead.C90_own_partial
#print axioms QtPb.StreamRead.C90_other_partial
#print axioms QtPb.StreamRead.C90_skipped_violated
#print axioms QtPb.StreamRead.C90_nested_violated
#print axioms QtPb.Races.C91_streams
#print axioms QtPb.Races.C91_partial
#print axioms QtPb.Races.C91_attach_violated
#print axioms QtPb.Races.C91_read_violated
#print axioms QtPb.Races.C91_elsewhere_violated
#print axioms QtPb.Channels.C92_safe_partial
#print axioms QtPb.Channels.C92_result_partial
#print axioms QtPb.Channels.C92_genuine
#print axioms QtPb.Channels.C92_lost_violated
#print axioms QtPb.Channels.C92_async_violated
#print axioms QtPb.Channels.C92_dangling_violated
#print axioms QtPb.Channels.C92_timer_violated
#print axioms QtPb.Channels.C92_native_violated
#print axioms QtPb.C93_exactly
#print axioms QtPb.C93_seen_partial
#print axioms QtPb.C93_read_partial
#print axioms QtPb.C93_always_violated
#print axioms QtPb.C93_hidden_violated
#print axioms QtPb.C93_default_violated
#print axioms QtPb.C93_two_violated
#print axioms QtPb.C93_read_violated
#print axioms QtPb.Gen.Text.C94_header_classes_partial
#print axioms QtPb.Gen.Text.C94_header_declared_partial
#print axioms QtPb.Gen.Text.C94_header_properties_partial
#print axioms QtPb.Gen.Text.C94_header_enums_partial
#print axioms QtPb.Gen.Text.C94_header_metatypes_partial
#print axioms QtPb.Gen.Text.C94_metatypes_of_classes
#print axioms QtPb.Gen.Text.C94_header_members_partial
#print axioms QtPb.Gen.Text.C94_header_objects_partial
#print axioms QtPb.Gen.Text.C94_header_moc_partial
#print axioms QtPb.Gen.Text.C94_source_partial
#print axioms QtPb.Gen.Text.C94_client_header_partial
#print axioms QtPb.Gen.Text.C94_client_source_partial
#print axioms QtPb.Gen.Text.C94_json_name_violated
#print axioms QtPb.Gen.Text.C94_keyword_violated
#print axioms QtPb.Gen.Text.C94_comment_violated
#print axioms QtPb.Gen.Text.C95_functions_partial
#print axioms QtPb.Gen.Text.C95_constructors_partial
#print axioms QtPb.Gen.Text.C95_ordering_partial
#print axioms QtPb.Gen.Text.C95_statements_partial
#print axioms QtPb.Gen.Text.C95_registration_partial
#print axioms QtPb.Gen.Text.C95_declared_partial
#print axioms QtPb.Gen.Text.C95_index_partial
#print axioms QtPb.Gen.Text.C95_clients_partial
#print axioms QtPb.Gen.Text.C96_class_partial
#print axioms QtPb.Gen.Text.C96_program_partial
#print axioms QtPb.Gen.Text.C96_answer_right
#print axioms QtPb.Gen.Text.C96_compare_partial
#print axioms QtPb.Gen.Text.C96_assign_partial
#print axioms QtPb.Gen.Text.C96_assign_sound
#print axioms QtPb.Gen.Text.C96_copy
#print axioms QtPb.Gen.Text.C96_move_assign_partial
#print axioms QtPb.Gen.Text.C96_move_construct
#print axioms QtPb.Gen.Text.C96_setter
#print axioms QtPb.Gen.Text.C96_setter_change_partial
#print axioms QtPb.Gen.Text.C96_message_setter_partial
#print axioms QtPb.Gen.Text.C96_getter
#print axioms QtPb.Gen.Text.C96_message_getter
#print axioms QtPb.Gen.Text.C96_set_get
#print axioms QtPb.Gen.Text.C96_pointer_getter
#print axioms QtPb.Gen.Text.C96_pointer_setter
#print axioms QtPb.Gen.Text.C96_alias
#print axioms QtPb.Gen.Text.C96_construct_partial
#print axioms QtPb.Gen.Text.C96_default
#print axioms QtPb.Gen.Text.C96_copy_constructor
#print axioms QtPb.Gen.Text.C96_move_constructor
#print axioms QtPb.Gen.Text.C96_construct_copies_partial
#print axioms QtPb.Gen.Text.C96_program_copies_partial
#print axioms QtPb.Gen.Text.C96_parent_violated
#print axioms QtPb.Gen.Text.C96_message_map_violated
#print axioms QtPb.Gen.Text.C96_enum_signal_violated
#print axioms QtPb.Gen.Text.C97_once_partial
#print axioms QtPb.Gen.Text.C97_twice_violated
#print axioms QtPb.Gen.Text.C97_enum_violated
#print axioms QtPb.Waiting.C98_sync_partial
#print axioms QtPb.Waiting.C98_read_partial
#print axioms QtPb.Waiting.C98_update
#print axioms QtPb.Waiting.C98_refused
#print axioms QtPb.Waiting.C98_object_violated
#print axioms QtPb.Waiting.C98_client_violated
#print axioms QtPb.Waiting.C98_format_violated
#print axioms QtPb.Waiting.C98_read_format_violated
#print axioms QtPb.Gen.C99_single_partial
#print axioms QtPb.Gen.C99_multi_partial
#print axioms QtPb.Gen.C99_single_read
#print axioms QtPb.Gen.C99_multi_read
#print axioms QtPb.Gen.Text.C99_single_text
#print axioms QtPb.Gen.Text.C99_multi_text
#print axioms QtPb.Gen.C99_later_enum_violated
#print axioms QtPb.Gen.C99_outer_enum_violated
#print axioms QtPb.Gen.C99_own_list_violated
#print axioms QtPb.Gen.C99_sibling_violated
#print axioms QtPb.Gen.C99_extra_namespace_violated
#print axioms QtPb.Gen.C99_mutual_lists_violated
#print axioms QtPb.Gen.Text.C100_headers_partial
#print axioms QtPb.Gen.Text.C100_sources_partial
#print axioms QtPb.Gen.Text.C100_class_partial
#print axioms QtPb.Gen.Text.C100_program_partial
#print axioms QtPb.Gen.Text.C100_program_copy_partial
#print axioms QtPb.Gen.Text.C100_exists_partial
#print axioms QtPb.Gen.Text.C100_enums_partial
#print axioms QtPb.Gen.Text.C100_clients_partial
#print axioms QtPb.Gen.Text.C101_methods_partial
#print axioms QtPb.Gen.Text.C101_each_partial
#print axioms QtPb.Gen.Text.C101_script_partial
#print axioms QtPb.Gen.Text.C101_object_partial
#print axioms QtPb.Gen.Text.C101_no_channel_violated
#print axioms QtPb.Gen.Text.C101_stream_null_violated
#print axioms QtPb.Gen.Text.C101_callback_violated
#print axioms QtPb.Heap.C102_independent_partial
#print axioms QtPb.Heap.C102_copy_partial
#print axioms QtPb.Heap.C102_assign_partial
#print axioms QtPb.Heap.C102_defined_partial
#print axioms QtPb.Heap.C102_shared_violated
#print axioms QtPb.Heap.C102_child_violated
#print axioms QtPb.Heap.C102_parent_violated
#print axioms QtPb.Heap.C102_element_violated
#print axioms QtPb.Convert.C103_exact_partial
#print axioms QtPb.Convert.C103_back_partial
#print axioms QtPb.Convert.C103_range_violated
#print axioms QtPb.Convert.C103_junk_violated
#print axioms QtPb.Convert.C103_missing_violated
#print axioms QtPb.Meta.C104_program_partial
#print axioms QtPb.Meta.C104_codec_partial
#print axioms QtPb.Meta.C104_wire_partial
#print axioms QtPb.Meta.C104_getters_partial
#print axioms QtPb.Meta.C104_properties_partial
#print axioms QtPb.Meta.C104_name_violated
#print axioms QtPb.MetaJson.C105_program_partial
#print axioms QtPb.MetaJson.C105_codec_partial
#print axioms QtPb.MetaJson.C105_document_partial
#print axioms QtPb.MetaJson.C105_reads_partial
#print axioms QtPb.MetaJson.C105_properties_partial
#print axioms QtPb.MetaJson.C105_name_violated
#print axioms QtPb.Whole.C106_program_partial
#print axioms QtPb.Whole.C106_same_partial
#print axioms QtPb.Whole.C106_writes_partial
#print axioms QtPb.Whole.C106_call_partial
#print axioms QtPb.Whole.C106_refused_partial
#print axioms QtPb.Whole.C106_stream_partial
#print axioms QtPb.Whole.Native.C106_native_same_partial
#print axioms QtPb.Whole.Native.C106_native_call_partial
#print axioms QtPb.Whole.Native.C106_native_refused_partial
#print axioms QtPb.Whole.Native.C106_native_stream_partial
#print axioms QtPb.Whole.Async.C106_async_partial
#print axioms QtPb.Whole.Async.C106_callback_partial
#print axioms QtPb.Whole.Async.C106_script_partial
#print axioms QtPb.Whole.Async.C106_object_partial
#print axioms QtPb.Whole.Native.Async.C106_native_async_partial
#print axioms QtPb.Whole.Native.Async.C106_native_callback_partial
#print axioms QtPb.Whole.Native.Async.C106_native_script_partial
#print axioms QtPb.Whole.Native.Async.C106_native_object_partial
#print axioms QtPb.Gen.Reg.Json.C107_write_exactly
#print axioms QtPb.Gen.Reg.Json.C107_read_exactly
#print axioms QtPb.Gen.Reg.Json.C107_handlers_partial
#print axioms QtPb.Gen.Reg.Json.C107_right
#print axioms QtPb.Gen.Reg.Json.C107_order
#print axioms QtPb.Gen.Reg.Json.C107_unsupported
#print axioms QtPb.Gen.Reg.Json.C107_neighbour_enum_violated
#print axioms QtPb.Gen.Reg.Json.C107_bools_violated
#print axioms QtPb.Gen.Reg.Json.C107_qt_map_violated
#print axioms QtPb.EndToEnd.Async.C108_own
#print axioms QtPb.EndToEnd.Async.C108_answer_partial
#print axioms QtPb.EndToEnd.Async.C108_refused
#print axioms QtPb.EndToEnd.Async.C108_timeout
#print axioms QtPb.EndToEnd.Async.C108_aborted
#print axioms QtPb.EndToEnd.Async.C108_finished
#print axioms QtPb.EndToEnd.Native.Async.C108_native_own
#print axioms QtPb.EndToEnd.Native.Async.C108_native_answer_partial
#print axioms QtPb.EndToEnd.Native.Async.C108_native_refused
#print axioms QtPb.StreamBytes.C109_history
#print axioms QtPb.StreamBytes.C109_own_partial
#print axioms QtPb.StreamBytes.C109_messages_partial
#print axioms QtPb.StreamBytes.C109_defined_partial
#print axioms QtPb.StreamBytes.C109_read
#print axioms QtPb.StreamBytes.C109_heard
#print axioms QtPb.StreamBytes.C109_alone
#print axioms QtPb.StreamBytes.C109_answer_partial
#print axioms QtPb.StreamBytes.C109_native_answer_partial
#print axioms QtPb.StreamBytes.C109_soiled_violated
#print axioms QtPb.GoList.C110_multi_partial
#print axioms QtPb.GoList.C110_single_partial
#print axioms QtPb.GoList.C110_fails_iff
#print axioms QtPb.GoList.C110_unread
#print axioms QtPb.GoList.C110_indented_violated
#print axioms QtPb.GoList.C110_nested_violated
#print axioms QtPb.GoList.C110_package_violated
#print axioms QtPb.GoList.C110_comment_violated
#print axioms QtPb.GoList.C110_enums_violated
#print axioms QtPb.ListModel.C111_view_partial
#print axioms QtPb.ListModel.C111_lifetime
#print axioms QtPb.ListModel.C111_add
#print axioms QtPb.ListModel.C111_distinct
#print axioms QtPb.ListModel.C111_rows
#print axioms QtPb.ListModel.C111_data
#print axioms QtPb.ListModel.C111_find_partial
#print axioms QtPb.ListModel.C111_silent_violated
#print axioms QtPb.ListModel.C111_beyond_violated
#print axioms QtPb.ListModel.C111_twice_violated
#print axioms QtPb.ListModel.C111_early_violated
#print axioms QtPb.ListModel.C111_null_violated
#print axioms QtPb.ChatServer.C112_send_partial
#print axioms QtPb.ChatServer.C112_subscribe_partial
#print axioms QtPb.ChatServer.C112_sender
#print axioms QtPb.ChatServer.C112_shown
#print axioms QtPb.ChatServer.C112_current_partial
#print axioms QtPb.ChatServer.C112_defined_partial
#print axioms QtPb.ChatServer.C112_longer_violated
#print axioms QtPb.ChatServer.C112_memory_violated
#print axioms QtPb.ChatServer.C112_early_violated
#print axioms QtPb.ChatServer.C112_missed_violated
#print axioms QtPb.ChatServer.C112_finished_violated
#print axioms QtPb.StreamReenter.C113_abort
#print axioms QtPb.StreamReenter.C113_twice_violated
#print axioms QtPb.StreamReenter.C113_wait_violated
#print axioms QtPb.PropsInside.C114_answer_http2_partial
#print axioms QtPb.PropsInside.C114_answer_native_partial
#print axioms QtPb.PropsInside.C114_message_partial
#print axioms QtPb.PropsInside.C114_end_partial
#print axioms QtPb.PropsInside.C114_failure_partial
#print axioms QtPb.PropsInside.C114_abort_partial
#print axioms QtPb.PropsInside.C114_failing_partial
#print axioms QtPb.PropsInside.C114_afterwards_partial
#print axioms QtPb.PropsInside.C114_violated
#print axioms QtPb.PropsInside.C114_where_violated
#print axioms QtPb.AddressServer.C115_stored
#print axioms QtPb.AddressServer.C115_add_partial
#print axioms QtPb.AddressServer.C115_shown
#print axioms QtPb.AddressServer.C115_told
#print axioms QtPb.AddressServer.C115_current_partial
#print axioms QtPb.AddressServer.C115_status_partial
#print axioms QtPb.AddressServer.C115_invited
#print axioms QtPb.AddressServer.C115_defined_partial
#print axioms QtPb.AddressServer.C115_call_partial
#print axioms QtPb.AddressServer.C115_active_partial
#print axioms QtPb.AddressServer.C115_client
#print axioms QtPb.AddressServer.C115_engine
#print axioms QtPb.AddressServer.C115_early_violated
#print axioms QtPb.AddressServer.C115_missed_violated
#print axioms QtPb.AddressServer.C115_missedStatus_violated
#print axioms QtPb.AddressServer.C115_unheard_violated
#print axioms QtPb.AddressServer.C115_crossed_violated
#print axioms QtPb.ChatEngine.C116_defined
#print axioms QtPb.ChatEngine.C116_shown
#print axioms QtPb.ChatEngine.C116_name_partial
#print axioms QtPb.ChatEngine.C116_sent_partial
#print axioms QtPb.ChatEngine.C116_listens
#print axioms QtPb.ChatEngine.C116_retries
#print axioms QtPb.ChatEngine.C116_server_partial
#print axioms QtPb.ChatEngine.C116_users
#print axioms QtPb.ChatEngine.C116_crossed_violated
#print axioms QtPb.ChatEngine.C116_longer_violated
#print axioms QtPb.EchoEngine.C117_sent_partial
#print axioms QtPb.EchoEngine.C117_shown_partial
#print axioms QtPb.EchoEngine.C117_alone_partial
#print axioms QtPb.EchoEngine.C117_server
#print axioms QtPb.EchoEngine.C117_overlap_violated
#print axioms QtPb.EchoEngine.C117_typing_violated
#print axioms QtPb.EchoEngine.C117_null_violated
#print axioms QtPb.Media.C118_schema
#print axioms QtPb.Media.C118_written_partial
#print axioms QtPb.Media.C118_url_partial
#print axioms QtPb.Media.C118_image_partial
#print axioms QtPb.Media.C118_wire_roundtrip_partial
#print axioms QtPb.Media.C118_resent_violated
#print axioms QtPb.Qt.C119_roundtrip_partial
#print axioms QtPb.Qt.C119_read_partial
#print axioms QtPb.Qt.C119_written_partial
#print axioms QtPb.Qt.C119_digits_violated
#print axioms QtPb.Qt.C120_read_partial
#print axioms QtPb.Qt.C120_absent
#print axioms QtPb.Qt.C120_absent_not_empty
#print axioms QtPb.Qt.C120_last
#print axioms QtPb.Qt.C120_written_partial
#print axioms QtPb.Qt.C120_roundtrip_partial
#print axioms QtPb.Qt.C120_equal
#print axioms QtPb.Qt.C120_returns_partial
#print axioms QtPb.Qt.C120_tiny_point_violated
#print axioms QtPb.Qt.C120_new_object_violated
#print axioms QtPb.Qt.C121_assign
#print axioms QtPb.Qt.C121_assign_returns_partial
#print axioms QtPb.Qt.C121_copy
#print axioms QtPb.Qt.C121_equal
#print axioms QtPb.Qt.C121_assign_equal
#print axioms QtPb.Qt.C121_copy_equal
#print axioms QtPb.Qt.C121_copy_stable
#print axioms QtPb.Qt.C121_target_partial
#print axioms QtPb.Qt.C121_roundtrip_partial
#print axioms QtPb.Qt.C121_copy_violated
#print axioms QtPb.Qt.C122_read_partial
#print axioms QtPb.Qt.C122_written_partial
#print axioms QtPb.Qt.C122_malformed_partial
#print axioms QtPb.Qt.C122_roundtrip_partial
#print axioms QtPb.Qt.C122_returns_partial
#print axioms QtPb.Qt.C122_unset_violated
#print axioms QtPb.Qt.C123_equal
#print axioms QtPb.Qt.C123_equal_returns_partial
#print axioms QtPb.Qt.C123_assign
#print axioms QtPb.Qt.C123_assign_returns_partial
#print axioms QtPb.Qt.C123_assign_equal
#print axioms QtPb.Qt.C123_copy_partial
#print axioms QtPb.Qt.C123_target_partial
#print axioms QtPb.Qt.C123_roundtrip_partial
#print axioms QtPb.Qt.C123_copy_violated
#print axioms QtPb.Qt.C124_assign_partial
#print axioms QtPb.Qt.C124_construct_partial
#print axioms QtPb.Qt.C124_construct_exact
#print axioms QtPb.Qt.C124_self_partial
#print axioms QtPb.Qt.C124_signal_partial
#print axioms QtPb.Qt.C124_construct_violated
#print axioms QtPb.Qt.C125_document_partial
#print axioms QtPb.Qt.C125_read_partial
#print axioms QtPb.Qt.C125_roundtrip_partial
#print axioms QtPb.Qt.C125_empty_violated
#print axioms QtPb.Qt.C125_recursive_violated
#print axioms QtPb.Qt.C126_shaped
#print axioms QtPb.Qt.C126_returns_partial
#print axioms QtPb.Qt.C126_only_rects_partial
#print axioms QtPb.Qt.C126_untouched
#print axioms QtPb.Qt.C126_overflow_violated
#print axioms QtPb.Qt.C126_far_violated
#print axioms QtPb.Media.C127_written_partial
#print axioms QtPb.Media.C127_read_partial
#print axioms QtPb.Media.C127_roundtrip_partial
#print axioms QtPb.Media.C127_returns
#print axioms QtPb.Qt.C128_shaped_partial
#print axioms QtPb.Qt.C128_terminates_partial
#print axioms QtPb.Qt.C128_budget_partial
#print axioms QtPb.Qt.C128_only_partial
#print axioms QtPb.Qt.C128_exactly_partial
#print axioms QtPb.Qt.C128_endless_violated
#print axioms QtPb.Qt.C128_breaks_violated
#print axioms QtPb.Qt.C128_overflow_violated
