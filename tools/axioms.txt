HttpIo.C01_code_lossless []
HttpIo.C01_status_lossless [propext, Quot.sound]
HttpIo.C01_status_table []
HttpIo.C02_display_parse [propext, Classical.choice, Quot.sound]
HttpIo.C02_display_parse_code [propext, Classical.choice, Quot.sound]
HttpIo.C03_status_parse [propext, Classical.choice, Quot.sound]
HttpIo.C03_status_parse_total [propext, Classical.choice, Quot.sound]
HttpIo.C04_category [propext, Classical.choice, Quot.sound]
HttpIo.C05_display [propext]
HttpIo.C05_display_parse [propext, Classical.choice, Quot.sound]
HttpIo.C05_parse [propext, Classical.choice, Quot.sound]
HttpIo.C06_version_parse [propext, Classical.choice, Quot.sound]
HttpIo.C06_version_roundtrip [propext, Classical.choice, Quot.sound]
HttpIo.C07_hex_parse [propext, Classical.choice, Quot.sound]
HttpIo.C07_hex_roundtrip [propext, Classical.choice, Quot.sound]
HttpIo.C07_size_line [propext, Classical.choice, Quot.sound]
HttpIo.C07_size_roundtrip [propext, Classical.choice, Quot.sound]
HttpIo.C08_eof [propext, Quot.sound]
HttpIo.C08_fault [propext, Quot.sound]
HttpIo.C08_line [propext, Classical.choice, Quot.sound]
HttpIo.C08_total [propext, Classical.choice, Quot.sound]
HttpIo.C09_request [propext, Classical.choice, Quot.sound]
HttpIo.C09_response [propext, Classical.choice, Quot.sound]
HttpIo.C100_any_handler_false [propext, Classical.choice, Quot.sound]
HttpIo.C100_completes_partial [propext, Classical.choice, Quot.sound]
HttpIo.C100_download [propext, Classical.choice, Quot.sound]
HttpIo.C100_upload [propext, Classical.choice, Quot.sound]
HttpIo.C101_get_false [propext, Classical.choice, Quot.sound]
HttpIo.C101_get_partial [propext, Classical.choice, Quot.sound]
HttpIo.C101_put [propext, Classical.choice, Quot.sound]
HttpIo.C102_client [propext, Classical.choice, Quot.sound]
HttpIo.C102_upload [propext, Classical.choice, Quot.sound]
HttpIo.C103_bodiless [propext, Classical.choice, Quot.sound]
HttpIo.C103_chunked_partial [propext, Classical.choice, Quot.sound]
HttpIo.C103_ignored [propext, Classical.choice, Quot.sound]
HttpIo.C103_length [propext, Classical.choice, Quot.sound]
HttpIo.C103_unread_false [propext, Classical.choice, Quot.sound]
HttpIo.C104_behind_false [propext, Classical.choice, Quot.sound]
HttpIo.C104_reached_partial [propext, Classical.choice, Quot.sound]
HttpIo.C104_untaken [propext, Classical.choice, Quot.sound]
HttpIo.C104_waits [propext, Classical.choice, Quot.sound]
HttpIo.C105_method [propext, Classical.choice, Quot.sound]
HttpIo.C105_prints [propext, Classical.choice, Quot.sound]
HttpIo.C106_cut_false [propext, Classical.choice, Quot.sound]
HttpIo.C106_noticed_partial [propext, Classical.choice, Quot.sound]
HttpIo.C107_output [propext, Classical.choice, Quot.sound]
HttpIo.C107_prints [propext, Classical.choice, Quot.sound]
HttpIo.C107_refused [propext, Classical.choice, Quot.sound]
HttpIo.C108_chunked_false [propext, Classical.choice, Quot.sound]
HttpIo.C108_nostd_false [propext, Classical.choice, Quot.sound]
HttpIo.C108_prints_partial [propext, Classical.choice, Quot.sound]
HttpIo.C108_refused [propext, Classical.choice, Quot.sound]
HttpIo.C109_prints_partial [propext, Classical.choice, Quot.sound]
HttpIo.C109_tls_false [propext, Classical.choice, Quot.sound]
HttpIo.C10_request [propext, Classical.choice, Quot.sound]
HttpIo.C10_response [propext, Classical.choice, Quot.sound]
HttpIo.C110_readme [propext, Classical.choice, Quot.sound]
HttpIo.C111_received_partial [propext, Classical.choice, Quot.sound]
HttpIo.C111_unnotified_false [propext, Classical.choice, Quot.sound]
HttpIo.C112_lenient_false [propext, Classical.choice, Quot.sound]
HttpIo.C112_strict_partial [propext, Classical.choice, Quot.sound]
HttpIo.C113_answers_partial [propext, Classical.choice, Quot.sound]
HttpIo.C113_continue_false [propext, Classical.choice, Quot.sound]
HttpIo.C113_refused [propext, Classical.choice, Quot.sound]
HttpIo.C113_waits [propext, Classical.choice, Quot.sound]
HttpIo.C114_redirect_false [propext, Classical.choice, Quot.sound]
HttpIo.C114_redirect_partial [propext, Classical.choice, Quot.sound]
HttpIo.C115_all_answered_false [propext, Classical.choice, Quot.sound]
HttpIo.C115_first_partial [propext, Classical.choice, Quot.sound]
HttpIo.C116_version_false [propext, Classical.choice, Quot.sound]
HttpIo.C116_version_partial [propext, Classical.choice, Quot.sound]
HttpIo.C117_wire_false [propext, Classical.choice, Quot.sound]
HttpIo.C117_wire_partial [propext, Classical.choice, Quot.sound]
HttpIo.C118_exact [propext, Classical.choice, Quot.sound]
HttpIo.C118_get_test [propext, Classical.choice, Quot.sound]
HttpIo.C118_lending [propext, Classical.choice, Quot.sound]
HttpIo.C118_met [propext, Classical.choice, Quot.sound]
HttpIo.C118_other [propext, Classical.choice, Quot.sound]
HttpIo.C118_put_test [propext, Classical.choice, Quot.sound]
HttpIo.C118_script [propext, Classical.choice, Quot.sound]
HttpIo.C118_unmet [propext, Classical.choice, Quot.sound]
HttpIo.C119_answer [propext, Classical.choice, Quot.sound]
HttpIo.C119_complaint_partial [propext, Classical.choice, Quot.sound]
HttpIo.C119_field [propext, Classical.choice, Quot.sound]
HttpIo.C119_fixed_false [propext, Classical.choice, Quot.sound]
HttpIo.C119_length [propext, Classical.choice, Quot.sound]
HttpIo.C119_method [propext, Classical.choice, Quot.sound]
HttpIo.C119_number [propext, Classical.choice, Quot.sound]
HttpIo.C119_printable [propext, Classical.choice, Quot.sound]
HttpIo.C119_words [propext, Quot.sound]
HttpIo.C11_ascii_partial [propext, Classical.choice, Quot.sound]
HttpIo.C11_header_line_iff [propext, Classical.choice, Quot.sound]
HttpIo.C11_no_panic_false [propext, Classical.choice, Quot.sound]
HttpIo.C11_request_panics_iff [propext, Classical.choice, Quot.sound]
HttpIo.C11_response_panics_iff [propext, Classical.choice, Quot.sound]
HttpIo.C120_fits [propext, Classical.choice, Quot.sound]
HttpIo.C120_read [propext, Classical.choice, Quot.sound]
HttpIo.C120_unread [propext, Classical.choice, Quot.sound]
HttpIo.C121_address [propext, Quot.sound]
HttpIo.C121_false [propext, Quot.sound]
HttpIo.C121_native [propext, Classical.choice, Quot.sound]
HttpIo.C121_openssl_partial [propext, Quot.sound]
HttpIo.C122_false [propext]
HttpIo.C122_native [propext, Quot.sound]
HttpIo.C122_openssl_partial [propext, Quot.sound]
HttpIo.C122_rustls [propext, Quot.sound]
HttpIo.C123_address [Quot.sound]
HttpIo.C123_client [propext, Classical.choice, Quot.sound]
HttpIo.C123_get [propext, Classical.choice, Quot.sound]
HttpIo.C123_put [propext, Classical.choice, Quot.sound]
HttpIo.C123_request [Quot.sound]
HttpIo.C124_buffered [propext, Classical.choice, Quot.sound]
HttpIo.C124_builder [propext, Classical.choice, Quot.sound]
HttpIo.C124_request_false [propext, Classical.choice, Quot.sound]
HttpIo.C124_respond_partial [propext, Classical.choice, Quot.sound]
HttpIo.C124_response_false [propext, Quot.sound]
HttpIo.C124_response_partial [propext, Quot.sound]
HttpIo.C124_unbuffered [propext, Classical.choice, Quot.sound]
HttpIo.C125_request [propext, Classical.choice, Quot.sound]
HttpIo.C125_request_unbuffered_partial [propext, Quot.sound]
HttpIo.C125_response_any [propext, Quot.sound]
HttpIo.C125_response_false [propext, Classical.choice, Quot.sound]
HttpIo.C125_response_partial [propext, Classical.choice, Quot.sound]
HttpIo.C126_grown_false [propext, Classical.choice, Quot.sound]
HttpIo.C126_length_false [propext, Classical.choice, Quot.sound]
HttpIo.C126_next_false [propext, Classical.choice, Quot.sound]
HttpIo.C126_next_std_false [propext, Classical.choice, Quot.sound]
HttpIo.C126_received_partial [propext, Classical.choice, Quot.sound]
HttpIo.C126_sent_partial [propext, Classical.choice, Quot.sound]
HttpIo.C127_calls [propext, Quot.sound]
HttpIo.C127_empty_false [propext, Quot.sound]
HttpIo.C127_nonempty_partial [propext, Classical.choice, Quot.sound]
HttpIo.C127_step [propext, Classical.choice, Quot.sound]
HttpIo.C128_chunked_partial [propext, Classical.choice, Quot.sound]
HttpIo.C128_plain [propext, Classical.choice, Quot.sound]
HttpIo.C128_size_false [propext, Classical.choice, Quot.sound]
HttpIo.C129_absolute_false [propext, Classical.choice, Quot.sound]
HttpIo.C129_escape_false [propext, Classical.choice, Quot.sound]
HttpIo.C129_plain_partial [propext, Classical.choice, Quot.sound]
HttpIo.C129_query_false [propext, Classical.choice, Quot.sound]
HttpIo.C12_history [propext, Quot.sound]
HttpIo.C12_insert [propext]
HttpIo.C12_lookup [propext, Quot.sound]
HttpIo.C12_lookup_ascii [propext, Classical.choice, Quot.sound]
HttpIo.C12_lookup_none [propext, Classical.choice, Quot.sound]
HttpIo.C12_request [propext, Quot.sound]
HttpIo.C12_response [propext, Quot.sound]
HttpIo.C130_cases [propext, Classical.choice, Quot.sound]
HttpIo.C130_listed_partial [propext, Classical.choice, Quot.sound]
HttpIo.C130_removed_false [propext, Classical.choice, Quot.sound]
HttpIo.C130_still [propext, Classical.choice, Quot.sound]
HttpIo.C130_vanished_false [propext, Classical.choice, Quot.sound]
HttpIo.C131_get_false [propext, Classical.choice, Quot.sound]
HttpIo.C131_others_partial [propext, Classical.choice, Quot.sound]
HttpIo.C131_put_false [propext, Classical.choice, Quot.sound]
HttpIo.C132_answer [propext, Classical.choice, Quot.sound]
HttpIo.C133_default_false [propext, Classical.choice, Quot.sound]
HttpIo.C133_own_partial [propext, Classical.choice, Quot.sound]
HttpIo.C134_collected [propext]
HttpIo.C134_headers [propext, Quot.sound]
HttpIo.C134_status [propext, Quot.sound]
HttpIo.C135_asks_again_false [propext, Classical.choice, Quot.sound]
HttpIo.C135_chunked_partial [propext, Classical.choice, Quot.sound]
HttpIo.C135_length_partial [propext, Classical.choice, Quot.sound]
HttpIo.C136_added_partial [propext, Quot.sound]
HttpIo.C136_additive_false [propext]
HttpIo.C136_builds [propext, Quot.sound]
HttpIo.C137_enough [propext, Classical.choice, Quot.sound]
HttpIo.C137_exact [propext, Classical.choice, Quot.sound]
HttpIo.C137_needed [propext, Classical.choice, Quot.sound]
HttpIo.C137_reading [propext, Classical.choice, Quot.sound]
HttpIo.C137_test [propext, Classical.choice, Quot.sound]
HttpIo.C138_closing [propext, Classical.choice, Quot.sound]
HttpIo.C138_exact [propext, Classical.choice, Quot.sound]
HttpIo.C138_test [propext, Classical.choice, Quot.sound]
HttpIo.C139_exact [propext, Classical.choice, Quot.sound]
HttpIo.C139_get [propext, Classical.choice, Quot.sound]
HttpIo.C139_reading [propext, Classical.choice, Quot.sound]
HttpIo.C13_collect_false [propext, Quot.sound]
HttpIo.C13_collect_partial [propext, Classical.choice, Quot.sound]
HttpIo.C13_lookup [propext, Classical.choice, Quot.sound]
HttpIo.C140_malformed_false [propext, Classical.choice, Quot.sound]
HttpIo.C140_refused_partial [propext, Classical.choice, Quot.sound]
HttpIo.C141_equal [propext]
HttpIo.C141_parse [propext, Classical.choice, Quot.sound]
HttpIo.C141_round_trip [propext]
HttpIo.C142_any_address_false [propext, Classical.choice, Quot.sound]
HttpIo.C142_first_partial [propext, Classical.choice, Quot.sound]
HttpIo.C142_others_unused [propext, Classical.choice, Quot.sound]
HttpIo.C143_grows [propext, Classical.choice, Quot.sound]
HttpIo.C143_lookup_false [propext, Classical.choice, Quot.sound]
HttpIo.C143_pooled_partial [propext, Classical.choice, Quot.sound]
HttpIo.C143_rotating_false [propext, Classical.choice, Quot.sound]
HttpIo.C144_beginning [propext, Classical.choice, Quot.sound]
HttpIo.C144_printed [propext, Classical.choice, Quot.sound]
HttpIo.C145_shut_false [propext, Classical.choice, Quot.sound]
HttpIo.C145_until_partial [propext, Classical.choice, Quot.sound]
HttpIo.C146_announced_false [propext, Classical.choice, Quot.sound]
HttpIo.C146_announced_partial [propext, Classical.choice, Quot.sound]
HttpIo.C147_regardless_partial [propext, Classical.choice, Quot.sound]
HttpIo.C147_respected_false [propext, Classical.choice, Quot.sound]
HttpIo.C148_answers [propext, Classical.choice, Quot.sound]
HttpIo.C148_at_once [propext, Classical.choice, Quot.sound]
HttpIo.C148_goes_on [propext, Classical.choice, Quot.sound]
HttpIo.C148_possible [propext, Classical.choice, Quot.sound]
HttpIo.C148_stored [propext, Classical.choice, Quot.sound]
HttpIo.C149_one_partial [propext, Classical.choice, Quot.sound]
HttpIo.C149_reused_false [propext, Classical.choice, Quot.sound]
HttpIo.C149_session_partial [propext, Classical.choice, Quot.sound]
HttpIo.C14_roundtrip [propext, Classical.choice, Quot.sound]
HttpIo.C14_serialized [propext, Quot.sound]
HttpIo.C150_client [propext, Classical.choice, Quot.sound]
HttpIo.C150_server [propext, Classical.choice, Quot.sound]
HttpIo.C151_client_partial [propext]
HttpIo.C151_server_partial [propext]
HttpIo.C151_told_false [propext]
HttpIo.C152_client_partial [propext]
HttpIo.C152_server_partial [propext]
HttpIo.C152_survives_false [propext]
HttpIo.C153_backed [propext, Quot.sound]
HttpIo.C153_clear [propext, Quot.sound]
HttpIo.C153_https_false [propext, Classical.choice, Quot.sound]
HttpIo.C153_https_partial [propext, Classical.choice, Quot.sound]
HttpIo.C154_method_partial [propext, Classical.choice, Quot.sound]
HttpIo.C154_plain_partial [propext, Classical.choice, Quot.sound]
HttpIo.C154_post_partial [propext, Classical.choice, Quot.sound]
HttpIo.C154_request_false [propext, Classical.choice, Quot.sound]
HttpIo.C154_request_partial [propext, Classical.choice, Quot.sound]
HttpIo.C155_request_false [propext, Classical.choice, Quot.sound]
HttpIo.C155_request_partial [propext, Classical.choice, Quot.sound]
HttpIo.C155_response_partial [propext, Classical.choice, Quot.sound]
HttpIo.C156_clean_partial [propext, Classical.choice, Quot.sound]
HttpIo.C156_copy_partial [propext, Classical.choice, Quot.sound]
HttpIo.C156_repeated_false [propext, Classical.choice, Quot.sound]
HttpIo.C156_small_partial [propext, Classical.choice, Quot.sound]
HttpIo.C157_attempts [propext, Classical.choice, Quot.sound]
HttpIo.C157_get_once [propext, Classical.choice, Quot.sound]
HttpIo.C157_once [propext, Classical.choice, Quot.sound]
HttpIo.C157_oneshot [propext, Classical.choice, Quot.sound]
HttpIo.C157_put_once [propext, Classical.choice, Quot.sound]
HttpIo.C158_final_false [propext, Quot.sound]
HttpIo.C158_request_partial [propext, Classical.choice, Quot.sound]
HttpIo.C158_response_partial [propext, Classical.choice, Quot.sound]
HttpIo.C159_disjoint [propext, Classical.choice, Quot.sound]
HttpIo.C159_echo [propext, Classical.choice, Quot.sound]
HttpIo.C159_echoing_peer [propext, Classical.choice, Quot.sound]
HttpIo.C159_reflect [propext, Classical.choice, Quot.sound]
HttpIo.C159_server [propext, Classical.choice, Quot.sound]
HttpIo.C15_last_wins [propext, Classical.choice, Quot.sound]
HttpIo.C160_decodable_partial [propext, Classical.choice, Quot.sound]
HttpIo.C160_same_partial [propext, Classical.choice, Quot.sound]
HttpIo.C160_split_false [propext, Classical.choice, Quot.sound]
HttpIo.C161_client [propext, Classical.choice, Quot.sound]
HttpIo.C161_conversation [propext, Classical.choice, Quot.sound]
HttpIo.C161_oneshot [propext, Classical.choice, Quot.sound]
HttpIo.C161_socket [propext, Classical.choice, Quot.sound]
HttpIo.C162_isolated [propext, Classical.choice, Quot.sound]
HttpIo.C162_untouched [propext, Classical.choice, Quot.sound]
HttpIo.C163_answer_false [propext, Classical.choice, Quot.sound]
HttpIo.C163_answer_partial [propext, Classical.choice, Quot.sound]
HttpIo.C163_measured [propext, Classical.choice, Quot.sound]
HttpIo.C164_again [propext, Classical.choice, Quot.sound]
HttpIo.C164_one [propext, Classical.choice, Quot.sound]
HttpIo.C164_order [propext, Classical.choice, Quot.sound]
HttpIo.C164_safe [propext, Classical.choice, Quot.sound]
HttpIo.C165_files [propext, Classical.choice, Quot.sound]
HttpIo.C165_old_false [propext, Classical.choice, Quot.sound]
HttpIo.C165_pooled_partial [propext, Classical.choice, Quot.sound]
HttpIo.C165_request_partial [propext, Classical.choice, Quot.sound]
HttpIo.C165_server [propext, Classical.choice, Quot.sound]
HttpIo.C166_decided [propext, Classical.choice, Quot.sound]
HttpIo.C166_header_false [propext, Classical.choice, Quot.sound]
HttpIo.C166_request_partial [propext, Classical.choice, Quot.sound]
HttpIo.C166_request_taken [propext, Classical.choice, Quot.sound]
HttpIo.C166_response_partial [propext, Classical.choice, Quot.sound]
HttpIo.C166_response_taken [propext, Classical.choice, Quot.sound]
HttpIo.C166_start_false [propext, Classical.choice, Quot.sound]
HttpIo.C167_download_false [propext, Classical.choice, Quot.sound]
HttpIo.C167_download_partial [propext, Classical.choice, Quot.sound]
HttpIo.C167_upload [propext, Classical.choice, Quot.sound]
HttpIo.C168_false [propext]
HttpIo.C168_honest [propext, Quot.sound]
HttpIo.C168_limit_partial [propext, Quot.sound]
HttpIo.C168_overclaim_partial [propext, Quot.sound]
HttpIo.C168_readers [propext, Classical.choice, Quot.sound]
HttpIo.C168_writers [propext, Quot.sound]
HttpIo.C169_blank_partial [propext, Classical.choice, Quot.sound]
HttpIo.C169_false [propext, Classical.choice, Quot.sound]
HttpIo.C169_names_partial [propext, Classical.choice, Quot.sound]
HttpIo.C169_unicode_partial [propext, Classical.choice, Quot.sound]
HttpIo.C16_exactly [propext, Classical.choice, Quot.sound]
HttpIo.C16_injection_false [propext, Classical.choice, Quot.sound]
HttpIo.C16_no_injection_partial [propext, Classical.choice, Quot.sound]
HttpIo.C16_values [propext, Classical.choice, Quot.sound]
HttpIo.C170_answer_partial [propext, Classical.choice, Quot.sound]
HttpIo.C170_false [propext, Classical.choice, Quot.sound]
HttpIo.C170_lf_partial [propext, Classical.choice, Quot.sound]
HttpIo.C170_request_partial [propext, Quot.sound]
HttpIo.C170_response_partial [propext, Quot.sound]
HttpIo.C171_response [propext, Classical.choice, Quot.sound]
HttpIo.C172_blank [propext, Classical.choice, Quot.sound]
HttpIo.C172_end [propext, Classical.choice, Quot.sound]
HttpIo.C172_text [propext, Classical.choice, Quot.sound]
HttpIo.C172_where [propext, Classical.choice, Quot.sound]
HttpIo.C173_false [propext, Classical.choice, Quot.sound]
HttpIo.C173_kept_partial [propext, Classical.choice, Quot.sound]
HttpIo.C173_never_less_partial [propext, Classical.choice, Quot.sound]
HttpIo.C174_early_partial [propext, Classical.choice, Quot.sound]
HttpIo.C174_false [propext, Classical.choice, Quot.sound]
HttpIo.C174_joined_partial [propext, Classical.choice, Quot.sound]
HttpIo.C174_shift_false [propext, Classical.choice, Quot.sound]
HttpIo.C175_answer [propext, Classical.choice, Quot.sound]
HttpIo.C175_request [propext, Classical.choice, Quot.sound]
HttpIo.C175_response [propext, Classical.choice, Quot.sound]
HttpIo.C176_answer_partial [propext, Classical.choice, Quot.sound]
HttpIo.C176_coding_partial [propext, Classical.choice, Quot.sound]
HttpIo.C176_false [propext, Quot.sound]
HttpIo.C176_headers_partial [propext, Classical.choice, Quot.sound]
HttpIo.C176_length_partial [propext, Classical.choice, Quot.sound]
HttpIo.C176_request_partial [propext, Classical.choice, Quot.sound]
HttpIo.C176_response_partial [propext, Classical.choice, Quot.sound]
HttpIo.C177_bound [propext, Classical.choice, Quot.sound]
HttpIo.C177_large [propext, Classical.choice, Quot.sound]
HttpIo.C177_size [propext, Classical.choice, Quot.sound]
HttpIo.C178_short [propext, Classical.choice, Quot.sound]
HttpIo.C179_download [propext, Classical.choice, Quot.sound]
HttpIo.C179_file [propext, Classical.choice, Quot.sound]
HttpIo.C179_listing [propext, Classical.choice, Quot.sound]
HttpIo.C179_test [propext, Classical.choice, Quot.sound]
HttpIo.C179_upload [propext, Classical.choice, Quot.sound]
HttpIo.C17_block [propext, Classical.choice, Quot.sound]
HttpIo.C17_line [propext, Classical.choice, Quot.sound]
HttpIo.C17_message [propext, Classical.choice, Quot.sound]
HttpIo.C180_get [propext, Classical.choice, Quot.sound]
HttpIo.C180_nothing [propext, Classical.choice, Quot.sound]
HttpIo.C180_put [propext, Classical.choice, Quot.sound]
HttpIo.C181_head_partial [propext, Classical.choice, Quot.sound]
HttpIo.C181_never_false [propext, Classical.choice, Quot.sound]
HttpIo.C182_condition_false [propext, Classical.choice, Quot.sound]
HttpIo.C182_ignored_partial [propext, Classical.choice, Quot.sound]
HttpIo.C182_range_false [propext, Classical.choice, Quot.sound]
HttpIo.C183_created_false [propext, Classical.choice, Quot.sound]
HttpIo.C183_same_partial [propext, Classical.choice, Quot.sound]
HttpIo.C184_status_partial [propext, Classical.choice, Quot.sound]
HttpIo.C184_success_false [propext, Classical.choice, Quot.sound]
HttpIo.C185_read [propext, Classical.choice, Quot.sound]
HttpIo.C185_total [propext, Classical.choice, Quot.sound]
HttpIo.C185_unique [propext, Classical.choice, Quot.sound]
HttpIo.C186_answer [propext, Classical.choice, Quot.sound]
HttpIo.C186_forever [propext, Classical.choice, Quot.sound]
HttpIo.C186_history_unique [propext, Classical.choice, Quot.sound]
HttpIo.C186_malformed [propext, Classical.choice, Quot.sound]
HttpIo.C186_total [propext, Classical.choice, Quot.sound]
HttpIo.C186_unique [propext, Classical.choice, Quot.sound]
HttpIo.C187_get [propext, Classical.choice, Quot.sound]
HttpIo.C187_put [propext, Classical.choice, Quot.sound]
HttpIo.C187_total [propext, Classical.choice, Quot.sound]
HttpIo.C187_unique [propext, Classical.choice, Quot.sound]
HttpIo.C188_request [propext, Classical.choice, Quot.sound]
HttpIo.C188_response [propext, Classical.choice, Quot.sound]
HttpIo.C188_total [propext, Classical.choice, Quot.sound]
HttpIo.C188_unique [propext, Classical.choice, Quot.sound]
HttpIo.C189_answer [propext, Classical.choice, Quot.sound]
HttpIo.C189_forever [propext, Classical.choice, Quot.sound]
HttpIo.C189_history_unique [propext, Classical.choice, Quot.sound]
HttpIo.C189_total [propext, Classical.choice, Quot.sound]
HttpIo.C189_unique [propext, Classical.choice, Quot.sound]
HttpIo.C18_end_to_end [propext, Classical.choice, Quot.sound]
HttpIo.C18_new [propext, Classical.choice, Quot.sound]
HttpIo.C18_roundtrip [propext, Classical.choice, Quot.sound]
HttpIo.C18_serialized [propext, Classical.choice, Quot.sound]
HttpIo.C190_client [propext, Classical.choice, Quot.sound]
HttpIo.C190_readme_first [propext, Classical.choice, Quot.sound]
HttpIo.C190_readme_second [propext, Classical.choice, Quot.sound]
HttpIo.C191_advanced [propext, Classical.choice, Quot.sound]
HttpIo.C191_finish [propext, Classical.choice, Quot.sound]
HttpIo.C191_total [propext, Classical.choice, Quot.sound]
HttpIo.C191_unique [propext, Classical.choice, Quot.sound]
HttpIo.C192_faulty [propext, Classical.choice, Quot.sound]
HttpIo.C192_noLength [propext, Classical.choice, Quot.sound]
HttpIo.C192_panics [propext, Classical.choice, Quot.sound]
HttpIo.C192_plain [propext, Classical.choice, Quot.sound]
HttpIo.C192_total [propext, Classical.choice, Quot.sound]
HttpIo.C192_unique [propext, Classical.choice, Quot.sound]
HttpIo.C192_upload [propext, Classical.choice, Quot.sound]
HttpIo.C193_forever [propext, Classical.choice, Quot.sound]
HttpIo.C193_total [propext, Classical.choice, Quot.sound]
HttpIo.C193_unique [propext, Classical.choice, Quot.sound]
HttpIo.C194_asks [propext, Classical.choice, Quot.sound]
HttpIo.C194_call [propext, Classical.choice, Quot.sound]
HttpIo.C194_calls [propext, Classical.choice, Quot.sound]
HttpIo.C194_settled [propext, Classical.choice, Quot.sound]
HttpIo.C195_forever [propext, Classical.choice, Quot.sound]
HttpIo.C196_repeat [propext, Classical.choice, Quot.sound]
HttpIo.C197_cut [propext, Classical.choice, Quot.sound]
HttpIo.C197_in_vain [propext, Classical.choice, Quot.sound]
HttpIo.C198_cut [propext, Classical.choice, Quot.sound]
HttpIo.C19_end_to_end [propext, Classical.choice, Quot.sound]
HttpIo.C19_new [propext, Classical.choice, Quot.sound]
HttpIo.C19_roundtrip [propext, Classical.choice, Quot.sound]
HttpIo.C19_serialized [propext, Quot.sound]
HttpIo.C20_bad_length [propext, Classical.choice, Quot.sound]
HttpIo.C20_framing_unique [propext, Classical.choice, Quot.sound]
HttpIo.C20_request [propext, Classical.choice, Quot.sound]
HttpIo.C20_response [propext, Classical.choice, Quot.sound]
HttpIo.C21_new [propext]
HttpIo.C22_flush [propext, Classical.choice, Quot.sound]
HttpIo.C22_upload [propext, Classical.choice, Quot.sound]
HttpIo.C23_empty_anywhere [propext, Classical.choice, Quot.sound]
HttpIo.C23_empty_write [propext, Classical.choice, Quot.sound]
HttpIo.C24_decode [propext, Classical.choice, Quot.sound]
HttpIo.C25_exact [propext, Classical.choice, Quot.sound]
HttpIo.C25_truncated [propext, Classical.choice, Quot.sound]
HttpIo.C26_interrupted_partial [propext, Classical.choice, Quot.sound]
HttpIo.C26_one_error [propext, Classical.choice, Quot.sound]
HttpIo.C26_retry_false [propext, Classical.choice, Quot.sound]
HttpIo.C27_empty_read_false [propext, Classical.choice, Quot.sound]
HttpIo.C27_finished_partial [propext, Classical.choice, Quot.sound]
HttpIo.C27_plain [propext, Classical.choice, Quot.sound]
HttpIo.C28_missing_partial [propext, Classical.choice, Quot.sound]
HttpIo.C28_tail_false [propext, Classical.choice, Quot.sound]
HttpIo.C29_exact [propext, Classical.choice, Quot.sound]
HttpIo.C29_yields [propext, Classical.choice, Quot.sound]
HttpIo.C30_detectable_partial [propext, Classical.choice, Quot.sound]
HttpIo.C30_truncated_false [propext, Classical.choice, Quot.sound]
HttpIo.C31_limited [propext, Classical.choice, Quot.sound]
HttpIo.C31_until_close [propext, Classical.choice, Quot.sound]
HttpIo.C32_parsed [propext, Classical.choice, Quot.sound]
HttpIo.C32_parsed_response [propext, Classical.choice, Quot.sound]
HttpIo.C32_require_length [propext, Quot.sound]
HttpIo.C33_copy_cause [propext, Quot.sound]
HttpIo.C33_copy_err [propext, Quot.sound]
HttpIo.C33_copy_ok [propext, Quot.sound]
HttpIo.C33_copy_succeeds [propext, Quot.sound]
HttpIo.C34_read_exact [propext, Classical.choice, Quot.sound]
HttpIo.C34_read_exact_fails [propext, Quot.sound]
HttpIo.C34_slice [propext, Classical.choice, Quot.sound]
HttpIo.C34_write_all [propext, Quot.sound]
HttpIo.C34_write_all_succeeds [propext, Classical.choice, Quot.sound]
HttpIo.C35_bufReader [propext, Classical.choice, Quot.sound]
HttpIo.C35_leaf [propext, Quot.sound]
HttpIo.C35_take [propext, Quot.sound]
HttpIo.C36_bufWriter [propext, Classical.choice, Quot.sound]
HttpIo.C37_added [propext, Quot.sound]
HttpIo.C37_constructors [propext, Classical.choice, Quot.sound]
HttpIo.C37_pooled [propext, Classical.choice, Quot.sound]
HttpIo.C37_standard [propext, Classical.choice, Quot.sound]
HttpIo.C38_query_false [propext, Classical.choice, Quot.sound]
HttpIo.C38_target_partial [propext, Classical.choice, Quot.sound]
HttpIo.C39_host_partial [propext, Classical.choice, Quot.sound]
HttpIo.C39_port_false [propext, Classical.choice, Quot.sound]
HttpIo.C40_accepted [propext, Classical.choice, Quot.sound]
HttpIo.C40_builder [propext, Classical.choice, Quot.sound]
HttpIo.C40_from_str [propext, Classical.choice, Quot.sound]
HttpIo.C40_port [propext, Classical.choice, Quot.sound]
HttpIo.C41_no_body [propext, Classical.choice, Quot.sound]
HttpIo.C42_after_failures [propext, Classical.choice, Quot.sound]
HttpIo.C42_failed_write_false [propext, Classical.choice, Quot.sound]
HttpIo.C42_nothing_read [propext, Classical.choice, Quot.sound]
HttpIo.C42_on_wire_partial [propext, Classical.choice, Quot.sound]
HttpIo.C42_reliable [propext, Classical.choice, Quot.sound]
HttpIo.C43_get [propext, Classical.choice, Quot.sound]
HttpIo.C43_only [propext, Classical.choice, Quot.sound]
HttpIo.C43_put [propext, Classical.choice, Quot.sound]
HttpIo.C44_failure [propext, Classical.choice, Quot.sound]
HttpIo.C44_one_connection [propext, Classical.choice, Quot.sound]
HttpIo.C44_reuse [propext, Classical.choice, Quot.sound]
HttpIo.C45_sequential [propext, Classical.choice, Quot.sound]
HttpIo.C46_chunked_false [propext, Classical.choice, Quot.sound]
HttpIo.C46_chunked_partial [propext, Classical.choice, Quot.sound]
HttpIo.C46_next [propext, Classical.choice, Quot.sound]
HttpIo.C46_off_by_one_false [propext, Classical.choice, Quot.sound]
HttpIo.C46_std_bytewise_false [propext, Classical.choice, Quot.sound]
HttpIo.C46_std_whole [propext, Classical.choice, Quot.sound]
HttpIo.C46_together_partial [propext, Classical.choice, Quot.sound]
HttpIo.C47_abandoned_partial [propext, Classical.choice, Quot.sound]
HttpIo.C47_forged_false [propext, Classical.choice, Quot.sound]
HttpIo.C47_next [propext, Classical.choice, Quot.sound]
HttpIo.C47_unread_false [propext, Classical.choice, Quot.sound]
HttpIo.C48_connect_partial [propext, Classical.choice, Quot.sound]
HttpIo.C48_never_replaced [propext, Classical.choice, Quot.sound]
HttpIo.C48_replaced_false [propext, Classical.choice, Quot.sound]
HttpIo.C49_handshake_partial [propext, Classical.choice, Quot.sound]
HttpIo.C49_no_ssl [propext]
HttpIo.C49_plain_https_false [propext, Classical.choice, Quot.sound]
HttpIo.C49_session_partial [propext, Classical.choice, Quot.sound]
HttpIo.C49_shared [propext, Classical.choice, Quot.sound]
HttpIo.C50_calls [propext, Classical.choice, Quot.sound]
HttpIo.C50_handed [propext, Quot.sound]
HttpIo.C50_log_unseen [propext, Classical.choice, Quot.sound]
HttpIo.C50_wire [propext, Classical.choice, Quot.sound]
HttpIo.C51_handler_error [propext, Classical.choice, Quot.sound]
HttpIo.C51_length_required [propext, Classical.choice, Quot.sound]
HttpIo.C51_unanswered_false [propext, Classical.choice, Quot.sound]
HttpIo.C51_unparsable_partial [propext, Classical.choice, Quot.sound]
HttpIo.C52_handler_quiet [propext, Classical.choice, Quot.sound]
HttpIo.C52_succeeds [propext, Classical.choice, Quot.sound]
HttpIo.C52_versions [propext, Classical.choice, Quot.sound]
HttpIo.C52_written [propext, Classical.choice, Quot.sound]
HttpIo.C53_default [propext, Classical.choice, Quot.sound]
HttpIo.C54_in_order_partial [propext, Classical.choice, Quot.sound]
HttpIo.C54_independent_partial [propext, Classical.choice, Quot.sound]
HttpIo.C54_no_panic_partial [propext, Classical.choice, Quot.sound]
HttpIo.C54_panics_iff [propext, Classical.choice, Quot.sound]
HttpIo.C54_stopped_false [propext, Classical.choice, Quot.sound]
HttpIo.C54_until_panic [propext, Classical.choice, Quot.sound]
HttpIo.C55_end_to_end [propext, Classical.choice, Quot.sound]
HttpIo.C55_request [propext, Classical.choice, Quot.sound]
HttpIo.C55_sending [propext, Classical.choice, Quot.sound]
HttpIo.C56_announced [propext, Classical.choice, Quot.sound]
HttpIo.C56_chunked [propext, Classical.choice, Quot.sound]
HttpIo.C56_closed_partial [propext, Classical.choice, Quot.sound]
HttpIo.C56_head_false [propext, Classical.choice, Quot.sound]
HttpIo.C56_head_iff [propext, Classical.choice, Quot.sound]
HttpIo.C56_zero_length_partial [propext, Classical.choice, Quot.sound]
HttpIo.C57_client [propext]
HttpIo.C57_client_closed [propext]
HttpIo.C57_client_log [propext, Quot.sound]
HttpIo.C57_client_written_false [propext, Quot.sound]
HttpIo.C57_returns [propext, Quot.sound]
HttpIo.C57_server [propext]
HttpIo.C57_server_closed [propext]
HttpIo.C57_server_log [propext, Quot.sound]
HttpIo.C57_server_written [propext]
HttpIo.C58_deterministic [propext, Quot.sound]
HttpIo.C58_lines [propext, Quot.sound]
HttpIo.C58_sorted [propext, Quot.sound]
HttpIo.C59_determined [propext, Classical.choice, Quot.sound]
HttpIo.C59_in_order [propext, Classical.choice, Quot.sound]
HttpIo.C59_no_panic [propext, Classical.choice, Quot.sound]
HttpIo.C59_reads [propext, Classical.choice, Quot.sound]
HttpIo.C59_remaining_once [propext, Classical.choice, Quot.sound]
HttpIo.C60_one_read []
HttpIo.C60_pieces_false [propext]
HttpIo.C60_whole_partial [propext, Quot.sound]
HttpIo.C61_no_panic_false [propext, Quot.sound]
HttpIo.C61_no_panic_partial [propext]
HttpIo.C61_panics_iff [propext, Classical.choice, Quot.sound]
HttpIo.C62_forward_false [propext, Classical.choice, Quot.sound]
HttpIo.C62_request_iff [propext, Classical.choice, Quot.sound]
HttpIo.C62_request_partial [propext, Classical.choice, Quot.sound]
HttpIo.C62_response_iff [propext, Classical.choice, Quot.sound]
HttpIo.C62_response_partial [propext, Classical.choice, Quot.sound]
HttpIo.C63_interrupted_false [propext, Quot.sound]
HttpIo.C63_request [propext, Classical.choice, Quot.sound]
HttpIo.C63_response [propext, Classical.choice, Quot.sound]
HttpIo.C63_response_sent [propext, Quot.sound]
HttpIo.C63_sent [propext, Classical.choice, Quot.sound]
HttpIo.C64_framing_false [propext, Quot.sound]
HttpIo.C64_framing_iff [propext, Classical.choice, Quot.sound]
HttpIo.C64_framing_partial [propext, Classical.choice, Quot.sound]
HttpIo.C64_rfc_unique [propext, Quot.sound]
HttpIo.C65_framing_false [propext, Quot.sound]
HttpIo.C65_framing_iff [propext, Classical.choice, Quot.sound]
HttpIo.C65_framing_partial [propext, Classical.choice, Quot.sound]
HttpIo.C65_rfc_unique [propext, Quot.sound]
HttpIo.C66_fetched [propext, Classical.choice, Quot.sound]
HttpIo.C66_put_get [propext, Classical.choice, Quot.sound]
HttpIo.C66_stored [propext, Classical.choice, Quot.sound]
HttpIo.C67_inside_false [propext, Classical.choice, Quot.sound]
HttpIo.C67_inside_partial [propext, Classical.choice, Quot.sound]
HttpIo.C67_link_false [propext, Classical.choice, Quot.sound]
HttpIo.C67_listing_false [propext, Classical.choice, Quot.sound]
HttpIo.C67_listing_partial [propext, Classical.choice, Quot.sound]
HttpIo.C68_failed_false [propext, Classical.choice, Quot.sound]
HttpIo.C68_written_partial [propext, Classical.choice, Quot.sound]
HttpIo.C69_request_complete [propext, Classical.choice, Quot.sound]
HttpIo.C69_request_sound [propext, Classical.choice, Quot.sound]
HttpIo.C69_response_complete [propext, Classical.choice, Quot.sound]
HttpIo.C69_response_sound [propext, Classical.choice, Quot.sound]
HttpIo.C70_first_partial [propext, Classical.choice, Quot.sound]
HttpIo.C70_reuse_false [propext, Classical.choice, Quot.sound]
HttpIo.C71_first_partial [propext, Classical.choice, Quot.sound]
HttpIo.C71_get_fails [propext, Classical.choice, Quot.sound]
HttpIo.C71_put_fails [propext, Classical.choice, Quot.sound]
HttpIo.C71_skipped_false [propext, Classical.choice, Quot.sound]
HttpIo.C71_taken [propext, Classical.choice, Quot.sound]
HttpIo.C72_bodiless_partial [propext, Classical.choice, Quot.sound]
HttpIo.C72_request_false [propext, Classical.choice, Quot.sound]
HttpIo.C72_request_partial [propext, Classical.choice, Quot.sound]
HttpIo.C72_response_false [propext, Classical.choice, Quot.sound]
HttpIo.C72_response_partial [propext, Classical.choice, Quot.sound]
HttpIo.C73_fields_false [propext, Classical.choice, Quot.sound]
HttpIo.C73_fields_partial [propext, Classical.choice, Quot.sound]
HttpIo.C73_usual [propext, Classical.choice, Quot.sound]
HttpIo.C74_chunked_false [propext, Classical.choice, Quot.sound]
HttpIo.C74_decoded_iff_partial [propext, Classical.choice, Quot.sound]
HttpIo.C74_extension [propext, Classical.choice, Quot.sound]
HttpIo.C74_plain_partial [propext, Classical.choice, Quot.sound]
HttpIo.C75_request_false [propext, Classical.choice, Quot.sound]
HttpIo.C75_request_partial [propext, Classical.choice, Quot.sound]
HttpIo.C75_usual [propext, Classical.choice, Quot.sound]
HttpIo.C76_response_false [propext, Classical.choice, Quot.sound]
HttpIo.C76_response_partial [propext, Classical.choice, Quot.sound]
HttpIo.C77_client [propext, Classical.choice, Quot.sound]
HttpIo.C77_request [propext, Classical.choice, Quot.sound]
HttpIo.C78_response_false [propext, Classical.choice, Quot.sound]
HttpIo.C78_response_partial [propext, Classical.choice, Quot.sound]
HttpIo.C79_bodiless_false [propext, Classical.choice, Quot.sound]
HttpIo.C79_bodiless_partial [propext, Classical.choice, Quot.sound]
HttpIo.C80_bad_url [propext, Classical.choice, Quot.sound]
HttpIo.C80_only [propext, Classical.choice, Quot.sound]
HttpIo.C80_reported [propext, Classical.choice, Quot.sound]
HttpIo.C81_directory [propext, Classical.choice, Quot.sound]
HttpIo.C81_file [propext, Classical.choice, Quot.sound]
HttpIo.C81_sent [propext, Classical.choice, Quot.sound]
HttpIo.C82_elsewhere_partial [propext, Classical.choice, Quot.sound]
HttpIo.C82_links_false [propext, Classical.choice, Quot.sound]
HttpIo.C82_links_partial [propext, Classical.choice, Quot.sound]
HttpIo.C82_symlink_false [propext, Classical.choice, Quot.sound]
HttpIo.C83_markup_false [propext, Classical.choice, Quot.sound]
HttpIo.C83_markup_partial [propext, Classical.choice, Quot.sound]
HttpIo.C84_absent_false [propext, Classical.choice, Quot.sound]
HttpIo.C84_absent_partial [propext, Classical.choice, Quot.sound]
HttpIo.C85_cut_false [propext, Classical.choice, Quot.sound]
HttpIo.C85_cut_partial [propext, Classical.choice, Quot.sound]
HttpIo.C85_cut_same [propext, Classical.choice, Quot.sound]
HttpIo.C86_body [propext, Classical.choice, Quot.sound]
HttpIo.C86_fragments [propext, Classical.choice, Quot.sound]
HttpIo.C86_framing [propext, Classical.choice, Quot.sound]
HttpIo.C86_headers [propext, Classical.choice, Quot.sound]
HttpIo.C87_head_false [propext, Classical.choice, Quot.sound]
HttpIo.C87_head_partial [propext, Classical.choice, Quot.sound]
HttpIo.C87_response_false [propext, Classical.choice, Quot.sound]
HttpIo.C87_response_partial [propext, Classical.choice, Quot.sound]
HttpIo.C88_host_false [propext, Classical.choice, Quot.sound]
HttpIo.C88_host_partial [propext, Classical.choice, Quot.sound]
HttpIo.C89_chunked [propext, Classical.choice, Quot.sound]
HttpIo.C89_left_false [propext, Classical.choice, Quot.sound]
HttpIo.C89_left_partial [propext, Classical.choice, Quot.sound]
HttpIo.C89_request [propext, Classical.choice, Quot.sound]
HttpIo.C89_response [propext, Classical.choice, Quot.sound]
HttpIo.C90_new_partial [propext, Classical.choice, Quot.sound]
HttpIo.C90_target_false [propext, Quot.sound]
HttpIo.C90_target_partial [propext, Classical.choice, Quot.sound]
HttpIo.C91_request [propext, Classical.choice, Quot.sound]
HttpIo.C91_response [propext, Classical.choice, Quot.sound]
HttpIo.C91_sources [propext, Quot.sound]
HttpIo.C92_data_partial [propext, Classical.choice, Quot.sound]
HttpIo.C92_false [propext, Classical.choice, Quot.sound]
HttpIo.C92_plain_partial [propext, Classical.choice, Quot.sound]
HttpIo.C92_size_partial [propext, Classical.choice, Quot.sound]
HttpIo.C92_sources [propext, Classical.choice, Quot.sound]
HttpIo.C92_tail_partial [propext, Classical.choice, Quot.sound]
HttpIo.C93_false [propext, Classical.choice, Quot.sound]
HttpIo.C93_finish [propext, Classical.choice, Quot.sound]
HttpIo.C93_kind_lost [propext, Classical.choice, Quot.sound]
HttpIo.C93_no_body_partial [propext, Classical.choice, Quot.sound]
HttpIo.C93_response [propext, Quot.sound]
HttpIo.C93_upload_partial [propext, Classical.choice, Quot.sound]
HttpIo.C94_accept_errors [propext]
HttpIo.C94_errors [propext]
HttpIo.C94_https [propext, Classical.choice, Quot.sound]
HttpIo.C94_native [propext, Quot.sound]
HttpIo.C94_native_iff [propext, Quot.sound]
HttpIo.C94_openssl [propext, Quot.sound]
HttpIo.C94_openssl_iff [propext, Quot.sound]
HttpIo.C94_rustls [propext, Quot.sound]
HttpIo.C94_rustls_errors [propext]
HttpIo.C95_false [propext]
HttpIo.C95_native_accepts_partial [propext, Quot.sound]
HttpIo.C95_native_partial [propext, Quot.sound]
HttpIo.C95_openssl_accepts_partial [propext, Classical.choice, Quot.sound]
HttpIo.C95_openssl_partial [propext, Classical.choice, Quot.sound]
HttpIo.C95_rustls_partial [propext, Quot.sound]
HttpIo.C96_false [propext]
HttpIo.C96_partial [propext, Quot.sound]
HttpIo.C96_rustls_iff [propext, Quot.sound]
HttpIo.C97_false [propext, Classical.choice, Quot.sound]
HttpIo.C97_ipv4_partial [propext, Classical.choice, Quot.sound]
HttpIo.C97_ipv6 [propext, Classical.choice, Quot.sound]
HttpIo.C98_accept [propext, Classical.choice, Quot.sound]
HttpIo.C98_false [propext, Classical.choice, Quot.sound]
HttpIo.C98_kind_lost [propext, Classical.choice, Quot.sound]
HttpIo.C98_serve_partial [propext, Classical.choice, Quot.sound]
HttpIo.C99_known [propext, Classical.choice, Quot.sound]
HttpIo.C99_round_trip [propext, Classical.choice, Quot.sound]
HttpIo.C99_same [propext, Classical.choice, Quot.sound]
HttpIo.C99_total []
HttpIo.C99_values [propext]
