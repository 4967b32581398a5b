{
 "claims": [
  {
   "property": "C01",
   "status": "proved",
   "theorems": [
    "Verif.C01_add_seconds_exact",
    "Verif.C01_add_seconds_returns_iff",
    "Verif.C01_add_seconds_week_back_panics",
    "Verif.C01_add_subframes_exact",
    "Verif.C01_add_subframes_inverse"
   ],
   "note": "The exact domain is proved: ok iff s > -604800 and the result is representable; finding 1."
  },
  {
   "property": "C02",
   "status": "proved",
   "theorems": [
    "Verif.C02_subframe_floor",
    "Verif.C02_subframe_idempotent",
    "Verif.C02_is_subframe_iff",
    "Verif.C02_difference_exact",
    "Verif.C02_difference_returns",
    "Verif.C02_difference_add",
    "Verif.C02_difference_unaligned_counterexample",
    "Verif.C02_order"
   ],
   "note": "Finding 2: the difference is not exact for unaligned GSTs (counterexample proved)."
  },
  {
   "property": "C03",
   "status": "proved",
   "theorems": [
    "Verif.C03_try_from_iff",
    "Verif.C03_try_from_val",
    "Verif.C03_iter"
   ],
   "note": ""
  },
  {
   "property": "C04",
   "status": "proved",
   "theorems": [
    "Verif.C04_feed_pages_returns",
    "Verif.C04_collected_subframe"
   ],
   "note": ""
  },
  {
   "property": "C05",
   "status": "proved",
   "theorems": [
    "Verif.C05_completed_iff",
    "Verif.C05_collected_once"
   ],
   "note": ""
  },
  {
   "property": "C06",
   "status": "proved",
   "theorems": [
    "Verif.C06_no_interference",
    "Verif.C06_no_interference_subframe"
   ],
   "note": ""
  },
  {
   "property": "C07",
   "status": "proved",
   "theorems": [
    "Verif.C07_feed_blocks_returns",
    "Verif.C07_completed_dsm",
    "Verif.C07_completed_iff"
   ],
   "note": ""
  },
  {
   "property": "C08",
   "status": "proved",
   "theorems": [
    "Verif.C08_returned_iff",
    "Verif.C08_order_independent"
   ],
   "note": ""
  },
  {
   "property": "C09",
   "status": "proved",
   "theorems": [
    "Verif.C09_get_chronological",
    "Verif.C09_supplied_sizes"
   ],
   "note": ""
  },
  {
   "property": "C10",
   "status": "proved",
   "theorems": [
    "Verif.C10_get_sound",
    "Verif.C10_bounded"
   ],
   "note": ""
  },
  {
   "property": "C11",
   "status": "proved",
   "theorems": [
    "Verif.C11_ced_is_latest_words",
    "Verif.C11_full_storage_fits",
    "Verif.C11_current_subframe",
    "Verif.C11_other_words_ignored",
    "Verif.C11_band_irrelevant",
    "Verif.C11_small_storage_recent"
   ],
   "note": ""
  },
  {
   "property": "C12",
   "status": "proved",
   "theorems": [
    "Verif.C12_timing_is_latest_words",
    "Verif.C12_other_words_ignored"
   ],
   "note": ""
  },
  {
   "property": "C13",
   "status": "proved",
   "theorems": [
    "Verif.C13_changed_data_unauthenticated",
    "Verif.C13_new_entry_unauthenticated",
    "Verif.C13_older_subframes_kept",
    "Verif.C13_never_increases",
    "Verif.C13_new_data_never_returned"
   ],
   "note": ""
  },
  {
   "property": "C14",
   "status": "proved",
   "theorems": [
    "Verif.C14_ced_provenance",
    "Verif.C14_timing_provenance"
   ],
   "note": ""
  },
  {
   "property": "C15",
   "status": "partial",
   "theorems": [
    "Verif.C15_reported_gst_partial",
    "Verif.C15_gap_bounds_partial",
    "Verif.C15_recent_gst_partial",
    "Verif.C15_gap_counterexample",
    "Verif.C15_exact_partial",
    "Verif.C15_exact_iff_no_gap_partial"
   ],
   "note": "False of the code with reception gaps (finding 8, counterexample). Proved: exact time for contiguous reception into a storage without eviction; for any storage when the reported age is below 255 subframes; bounds for reception with gaps; C15_exact_partial gives the exact reported time for every reception with gaps, and C15_exact_iff_no_gap_partial the exact condition under which it is the right time."
  },
  {
   "property": "C16",
   "status": "proved",
   "theorems": [
    "Verif.C16_none_iff",
    "Verif.C16_most_recent",
    "Verif.C16_stored_order",
    "Verif.C16_latest_subframe"
   ],
   "note": ""
  },
  {
   "property": "C17",
   "status": "proved",
   "theorems": [
    "Verif.C17_at_least_40",
    "Verif.C17_process_mack_exact",
    "Verif.C17_process_mack_slowmac_exact",
    "Verif.C17_other_data_unchanged",
    "Verif.C17_gain_is_sum_of_verified_tags"
   ],
   "note": ""
  },
  {
   "property": "C18",
   "status": "proved",
   "theorems": [
    "Verif.C18_validate_tag0_exact",
    "Verif.C18_validate_tag_exact",
    "Verif.C18_message_determines_fields",
    "Verif.C18_tag_binding"
   ],
   "note": ""
  },
  {
   "property": "C19",
   "status": "proved",
   "theorems": [
    "Verif.C19_dummy_mack_changes_nothing",
    "Verif.C19_dummy_is_zero_data"
   ],
   "note": ""
  },
  {
   "property": "C20",
   "status": "proved",
   "theorems": [
    "Verif.C20_macseq_accepts_iff",
    "Verif.C20_unknown_table",
    "Verif.C20_flex_slot_beyond_panics",
    "Verif.C20_message_determines_flexible_infos"
   ],
   "note": ""
  },
  {
   "property": "C21",
   "status": "proved",
   "theorems": [
    "Verif.C21_get_maclt_entry_exact",
    "Verif.C21_flx_indices_exact",
    "Verif.C21_timing_slots_are_self",
    "Verif.C21_mack_validate_exact",
    "Verif.C21_accepted_conforms"
   ],
   "note": ""
  },
  {
   "property": "C22",
   "status": "proved",
   "theorems": [
    "Verif.C22_derive_add",
    "Verif.C22_derive_spec",
    "Verif.C22_derive_returns_iff"
   ],
   "note": ""
  },
  {
   "property": "C23",
   "status": "proved",
   "theorems": [
    "Verif.C23_validate_key_exact",
    "Verif.C23_accepts_iff",
    "Verif.C23_transitive"
   ],
   "note": ""
  },
  {
   "property": "C24",
   "status": "proved",
   "theorems": [
    "Verif.C24_key_binding"
   ],
   "note": ""
  },
  {
   "property": "C25",
   "status": "proved",
   "theorems": [
    "Verif.C25_merkle_binding",
    "Verif.C25_public_key_binding",
    "Verif.C25_accepted_iff_proved"
   ],
   "note": ""
  },
  {
   "property": "C26",
   "status": "proved",
   "theorems": [
    "Verif.C26_genuine_leaf_accepted"
   ],
   "note": ""
  },
  {
   "property": "C27",
   "status": "proved",
   "theorems": [
    "Verif.C27_kroot_accepted_iff",
    "Verif.C27_signed_message_determines_key"
   ],
   "note": ""
  },
  {
   "property": "C28",
   "status": "proved",
   "theorems": [
    "Verif.C28_curve_recognised_iff",
    "Verif.C28_genuine_kroot_located",
    "Verif.C28_block_counts"
   ],
   "note": ""
  },
  {
   "property": "C29",
   "status": "proved",
   "theorems": [
    "Verif.C29_logged_runs_are_runs",
    "Verif.C29_keys_ordered",
    "Verif.C29_no_assertion_fires",
    "Verif.C29_current_never_decreases",
    "Verif.C29_keys_exact",
    "Verif.C29_smaller_never_used"
   ],
   "note": ""
  },
  {
   "property": "C30",
   "status": "proved",
   "theorems": [
    "Verif.C30_keys_exact",
    "Verif.C30_one_key_per_chain",
    "Verif.C30_current_key_iff",
    "Verif.C30_store_key_returns",
    "Verif.C30_verified_key_is_stored",
    "Verif.C30_key_kept",
    "Verif.C30_accepted_key_chain",
    "Verif.C30_accepted_keys_increase",
    "Verif.C30_key_accepted_once"
   ],
   "note": ""
  },
  {
   "property": "C31",
   "status": "proved",
   "theorems": [
    "Verif.C31_ced_authentic_merkle",
    "Verif.C31_ced_authentic_pubkey",
    "Verif.C31_ced_tag_kind",
    "Verif.C31_some_tag"
   ],
   "note": ""
  },
  {
   "property": "C32",
   "status": "proved",
   "theorems": [
    "Verif.C32_timing_authentic_merkle",
    "Verif.C32_timing_authentic_pubkey",
    "Verif.C32_timing_tag_kind"
   ],
   "note": ""
  },
  {
   "property": "C33",
   "status": "proved",
   "theorems": [
    "Verif.C33_no_timing_merkle",
    "Verif.C33_no_timing_pubkey",
    "Verif.C33_only_slow_tags"
   ],
   "note": ""
  },
  {
   "property": "C34",
   "status": "proved",
   "theorems": [
    "Verif.C34_nothing_stored_after_alert",
    "Verif.C34_no_authbits_after_alert",
    "Verif.C34_only_old_data_returned"
   ],
   "note": ""
  },
  {
   "property": "C35",
   "status": "proved",
   "theorems": [
    "Verif.C35_no_key_of_revoked_chain",
    "Verif.C35_no_key_accepted",
    "Verif.C35_no_tag_counted"
   ],
   "note": ""
  },
  {
   "property": "C36",
   "status": "proved",
   "theorems": [
    "Verif.C36_announced_ids_never_decrease",
    "Verif.C36_nothing_after_alert"
   ],
   "note": ""
  },
  {
   "property": "C37",
   "status": "proved",
   "theorems": [
    "Verif.C37_from_pubkey",
    "Verif.C37_from_merkle_tree",
    "Verif.C37_every_kroot_trusted"
   ],
   "note": ""
  },
  {
   "property": "C38",
   "status": "proved",
   "theorems": [
    "Verif.C38_feed_inav_returns",
    "Verif.C38_get_returns"
   ],
   "note": ""
  },
  {
   "property": "C39",
   "status": "partial",
   "theorems": [
    "Verif.C39_panics_iff_partial",
    "Verif.C39_harmless_returns_partial",
    "Verif.C39_counterexample_short_kroot",
    "Verif.C39_counterexample_bad_signature",
    "Verif.C39_counterexample_short_pkr"
   ],
   "note": "False of the code: three counterexamples made without secrets (finding 6). Proved: the exact set of received DSMs that panic, and that nothing else does."
  },
  {
   "property": "C40",
   "status": "proved",
   "theorems": [
    "Verif.C40_zero_ignored",
    "Verif.C40_zero_logs_nothing"
   ],
   "note": ""
  },
  {
   "property": "C41",
   "status": "proved",
   "theorems": [
    "Verif.C41_navigation_data_kept",
    "Verif.C41_returned_data_kept"
   ],
   "note": ""
  },
  {
   "property": "C42",
   "status": "proved",
   "theorems": [
    "Verif.C42_bad_status_changes_nothing"
   ],
   "note": ""
  },
  {
   "property": "C43",
   "status": "proved",
   "theorems": [
    "Verif.C43_write_reports_size",
    "Verif.C43_write_succeeds",
    "Verif.C43_write_sequence",
    "Verif.C43_round_trip",
    "Verif.C43_truncated",
    "Verif.C43_any_stream",
    "Verif.C43_navmon_round_trip",
    "Verif.C43_navmon_injective"
   ],
   "note": ""
  },
  {
   "property": "C44",
   "status": "proved",
   "theorems": [
    "Verif.C44_chronological",
    "Verif.C44_calls",
    "Verif.C44_no_dummy_words",
    "Verif.C44_correction_keeps_subframe",
    "Verif.C44_calls_unique",
    "Verif.C44_calls_exist"
   ],
   "note": ""
  },
  {
   "property": "C45",
   "status": "proved",
   "theorems": [
    "Verif.C45_line",
    "Verif.C45_line_returns",
    "Verif.C45_fits",
    "Verif.C45_session",
    "Verif.C45_session_returns",
    "Verif.C45_client_lines",
    "Verif.C45_end_to_end"
   ],
   "note": ""
  },
  {
   "property": "C46",
   "status": "proved",
   "theorems": [
    "Verif.C46_file_name",
    "Verif.C46_file_name_early",
    "Verif.C46_file_name_rejected",
    "Verif.C46_all_dates",
    "Verif.C46_page",
    "Verif.C46_every_page",
    "Verif.C46_time",
    "Verif.C46_convert",
    "Verif.C46_all_pages",
    "Verif.C46_end_to_end",
    "Verif.C46_runs",
    "Verif.C46_end_to_end_navmon"
   ],
   "note": ""
  },
  {
   "property": "C47",
   "status": "partial",
   "theorems": [
    "Verif.C47_slow_key_chain_partial",
    "Verif.C47_slow_key_available_partial",
    "Verif.C47_counterexample"
   ],
   "note": "False of the code (finding 4): counterexample, a repeated KROOT resets the start of applicability so old-chain Slow MAC tags are no longer checked. Proved: what holds until the second KROOT."
  },
  {
   "property": "C48",
   "status": "partial",
   "theorems": [
    "Verif.C48_fresh_kroot_unused",
    "Verif.C48_recovers_partial",
    "Verif.C48_counterexample"
   ],
   "note": "False of the code (finding 5): counterexample, and for every history a fresh KROOT of the chain in force is never used. Proved: recovery for gaps of at most 3000 subframes."
  },
  {
   "property": "C49",
   "status": "proved",
   "theorems": [
    "Verif.C49_kroot_fields_decoded"
   ],
   "note": ""
  },
  {
   "property": "C50",
   "status": "proved",
   "theorems": [
    "Verif.C50_mack_fields_decoded",
    "Verif.C50_accessors_never_panic"
   ],
   "note": ""
  },
  {
   "property": "C51",
   "status": "proved",
   "theorems": [
    "Verif.C51_pkr_fields_decoded",
    "Verif.C51_pkr_padding_check",
    "Verif.C51_dsm_header_decoded",
    "Verif.C51_nma_header_decoded"
   ],
   "note": ""
  },
  {
   "property": "C52",
   "status": "proved",
   "theorems": [
    "Verif.C52_genuine_data_is_authenticated"
   ],
   "note": ""
  },
  {
   "property": "C53",
   "status": "proved",
   "theorems": [
    "Verif.C53_authbits_since_change",
    "Verif.C53_checked_tags"
   ],
   "note": ""
  },
  {
   "property": "C54",
   "status": "partial",
   "theorems": [
    "Verif.C54_none_at_end_partial",
    "Verif.C54_counterexample"
   ],
   "note": "False of the code (finding 13): a stream cut inside a packet header is reported as a clean end (counterexample). Proved: None means fewer than a whole header (6 bytes) was left."
  },
  {
   "property": "C55",
   "status": "proved",
   "theorems": [
    "Verif.C55_filter",
    "Verif.C55_any_input",
    "Verif.C55_write_error",
    "Verif.C55_navmon",
    "Verif.C55_panic_counterexample"
   ],
   "note": "Proved for every input stream; finding 15: a crafted packet makes it panic (exact condition proved, witness with the messages of navmon.proto)."
  },
  {
   "property": "C56",
   "status": "proved",
   "theorems": [
    "Verif.C56_logged_was_returned",
    "Verif.C56_logged_is_authentic",
    "Verif.C56_logged_is_authentic_pubkey",
    "Verif.C56_no_repetition",
    "Verif.C56_nothing_missed"
   ],
   "note": ""
  },
  {
   "property": "C57",
   "status": "partial",
   "theorems": [
    "Verif.C57_time_kept_partial",
    "Verif.C57_counterexample"
   ],
   "note": "False of the code (finding 12): counterexample, the TOW correction fires on a right packet. Proved: the exact condition under which a packet keeps its own time."
  },
  {
   "property": "C58",
   "status": "proved",
   "theorems": [
    "Verif.C58_no_overrun",
    "Verif.C58_calls_in_order",
    "Verif.C58_no_deadlock",
    "Verif.C58_delivered",
    "Verif.C58_terminates",
    "Verif.C58_all_delivered"
   ],
   "note": ""
  },
  {
   "property": "C59",
   "status": "proved",
   "theorems": [
    "Verif.C59_status"
   ],
   "note": ""
  },
  {
   "property": "C60",
   "status": "proved",
   "theorems": [
    "Verif.C60_returns_iff",
    "Verif.C60_week_numbers"
   ],
   "note": ""
  },
  {
   "property": "C61",
   "status": "proved",
   "theorems": [
    "Verif.C61_remote_every_schedule",
    "Verif.C61_client_returns_iff",
    "Verif.C61_remote_other",
    "Verif.C61_remote"
   ],
   "note": ""
  },
  {
   "property": "C62",
   "status": "proved",
   "theorems": [
    "Verif.C62_reference_machine",
    "Verif.C62_machine_deterministic",
    "Verif.C62_received_unique",
    "Verif.C62_settings_irrelevant",
    "Verif.C62_same_panics"
   ],
   "note": ""
  },
  {
   "property": "C63",
   "status": "proved",
   "theorems": [
    "Verif.C63_reference_machine",
    "Verif.C63_getters",
    "Verif.C63_contains_key_machine",
    "Verif.C63_machine_deterministic"
   ],
   "note": ""
  },
  {
   "property": "C64",
   "status": "proved",
   "theorems": [
    "Verif.C64_waits",
    "Verif.C64_no_misreading",
    "Verif.C64_returns_iff",
    "Verif.C64_unambiguous",
    "Verif.C64_client_line",
    "Verif.C64_empty_line_panics"
   ],
   "note": ""
  },
  {
   "property": "C65",
   "status": "partial",
   "theorems": [
    "Verif.C65_one_place",
    "Verif.C65_kept",
    "Verif.C65_fits",
    "Verif.C65_in_view",
    "Verif.C65_genuine_data_in_view",
    "Verif.C65_starvation_counterexample"
   ],
   "note": "False of the code (finding 16): counterexample, satellites newly in view take the same place from each other for as long as the old ones have fields less than 255 subframes old. Proved: the exact rule for one word; satellites with a complete entry keep it while those heard in the last K subframes fit and their oldest field is younger than K; C52 for any satellite that keeps its place."
  },
  {
   "property": "C66",
   "status": "proved",
   "theorems": [
    "Verif.C66_starts_iff",
    "Verif.C66_logged_is_authentic",
    "Verif.C66_large_identifier",
    "Verif.C66_firmware_build",
    "Verif.C66_firmware_start",
    "Verif.C66_firmware_authentic"
   ],
   "note": ""
  },
  {
   "property": "C67",
   "status": "proved",
   "theorems": [
    "Verif.C67_reads",
    "Verif.C67_unambiguous",
    "Verif.C67_writes",
    "Verif.C67_converter",
    "Verif.C67_accepts",
    "Verif.C67_concat",
    "Verif.C67_writes_signed"
   ],
   "note": ""
  },
  {
   "property": "C68",
   "status": "proved",
   "theorems": [
    "Verif.C68_succeeds",
    "Verif.C68_output",
    "Verif.C68_fails",
    "Verif.C68_panics",
    "Verif.C68_unambiguous",
    "Verif.C68_all_pages"
   ],
   "note": ""
  },
  {
   "property": "C69",
   "status": "proved",
   "theorems": [
    "Verif.C69_pkr_debug",
    "Verif.C69_kroot_debug",
    "Verif.C69_mack_debug",
    "Verif.C69_svn_display",
    "Verif.C69_call",
    "Verif.C69_history"
   ],
   "note": ""
  },
  {
   "property": "C70",
   "status": "proved",
   "theorems": [
    "Verif.C70_add_seconds",
    "Verif.C70_add_seconds_returns",
    "Verif.C70_add_subframes",
    "Verif.C70_call_same",
    "Verif.C70_history_same",
    "Verif.C70_getters_same",
    "Verif.C70_call_agree",
    "Verif.C70_history_agree",
    "Verif.C70_getters_agree",
    "Verif.C70_origin_kroot",
    "Verif.C70_origin_kroot_stuck"
   ],
   "note": ""
  },
  {
   "property": "C71",
   "status": "proved",
   "theorems": [
    "Verif.C71_public_key",
    "Verif.C71_public_key_iff",
    "Verif.C71_key_traced",
    "Verif.C71_key_on_chain",
    "Verif.C71_key_obtainable",
    "Verif.C71_forward_key",
    "Verif.C71_header_iff",
    "Verif.C71_mack"
   ],
   "note": ""
  },
  {
   "property": "C72",
   "status": "proved",
   "theorems": [
    "Verif.C72_backed_by_tags",
    "Verif.C72_provenance",
    "Verif.C72_reset",
    "Verif.C72_returns",
    "Verif.C72_get_returns"
   ],
   "note": ""
  },
  {
   "property": "C73",
   "status": "proved",
   "theorems": [
    "Verif.C73_repeat_does_nothing",
    "Verif.C73_repeats",
    "Verif.C73_same_answers",
    "Verif.C73_out_of_order_counterexample"
   ],
   "note": ""
  },
  {
   "property": "C74",
   "status": "partial",
   "theorems": [
    "Verif.C74_complete_then_ignored",
    "Verif.C74_recovery_partial",
    "Verif.C74_recovery_pkr_partial",
    "Verif.C74_counterexample"
   ],
   "note": "False of the code (finding 10): counterexample, a DSM-KROOT of which one bit was wrong is never accepted, however often it is received rightly, until a block of another DSM id comes. Proved: once all blocks of an id were seen nothing more is made of blocks of this id; after a subframe with another id (or none) the genuine blocks, in any order and repeated, are accepted exactly once (DSM-KROOT: C74_recovery_partial; DSM-PKR: C74_recovery_pkr_partial)."
  },
  {
   "property": "C75",
   "status": "proved",
   "theorems": [
    "Verif.C75_never_panics",
    "Verif.C75_kroot_accepted",
    "Verif.C75_key_accepted",
    "Verif.C75_authenticates"
   ],
   "note": ""
  },
  {
   "property": "C76",
   "status": "proved",
   "theorems": [
    "Verif.C76_never_panics",
    "Verif.C76_kroot_accepted",
    "Verif.C76_key_accepted",
    "Verif.C76_authenticates"
   ],
   "note": ""
  },
  {
   "property": "C77",
   "status": "proved",
   "theorems": [
    "Verif.C77_established",
    "Verif.C77_key_accepted",
    "Verif.C77_only_genuine_keys",
    "Verif.C77_authenticates",
    "Verif.C77_replay_counterexample"
   ],
   "note": ""
  },
  {
   "property": "C78",
   "status": "proved",
   "theorems": [
    "Verif.C78_in_time",
    "Verif.C78_nothing_after_disclosure",
    "Verif.C78_new_data_needs_later_keys",
    "Verif.C78_before_key_is_sent"
   ],
   "note": ""
  },
  {
   "property": "C79",
   "status": "proved",
   "theorems": [
    "Verif.C79_same_state",
    "Verif.C79_same_result",
    "Verif.C79_same_panics",
    "Verif.C79_same_answers"
   ],
   "note": ""
  },
  {
   "property": "C80",
   "status": "proved",
   "theorems": [
    "Verif.C80_same_program",
    "Verif.C80_bounded_work",
    "Verif.C80_in_order",
    "Verif.C80_tracking",
    "Verif.C80_words_are_free",
    "Verif.C80_pages_are_free",
    "Verif.C80_future_root_costs"
   ],
   "note": ""
  },
  {
   "property": "C81",
   "status": "proved",
   "theorems": [
    "Verif.C81_larger_receiver",
    "Verif.C81_more_storage",
    "Verif.C81_documented_sizes_suffice",
    "Verif.C81_full_storage",
    "Verif.C81_sizes_are_needed"
   ],
   "note": ""
  },
  {
   "property": "C82",
   "status": "proved",
   "theorems": [
    "Verif.C82_reports_last",
    "Verif.C82_change_counterexample"
   ],
   "note": ""
  },
  {
   "property": "C83",
   "status": "proved",
   "theorems": [
    "Verif.C83_other_words_irrelevant",
    "Verif.C83_same_answer"
   ],
   "note": ""
  },
  {
   "property": "C84",
   "status": "proved",
   "theorems": [
    "Verif.C84_accepted_keys_are_the_broadcasts",
    "Verif.C84_no_key_from_replay",
    "Verif.C84_replay_authenticates_nothing"
   ],
   "note": ""
  },
  {
   "property": "C85",
   "status": "proved",
   "theorems": [
    "Verif.C85_slow_only_reports_less",
    "Verif.C85_normal_receiver"
   ],
   "note": ""
  },
  {
   "property": "C86",
   "status": "proved",
   "theorems": [
    "Verif.C86_hearing_more",
    "Verif.C86_keys",
    "Verif.C86_room_is_needed"
   ],
   "note": ""
  },
  {
   "property": "C87",
   "status": "proved",
   "theorems": [
    "Verif.C87_reference_machine",
    "Verif.C87_getters",
    "Verif.C87_contains_key_machine",
    "Verif.C87_with_room",
    "Verif.C87_machine_deterministic"
   ],
   "note": ""
  },
  {
   "property": "C88",
   "status": "proved",
   "theorems": [
    "Verif.C88_tags_modulo_4096",
    "Verif.C88_one_way_modulo_4096",
    "Verif.C88_nothing_from_week_4097",
    "Verif.C88_nothing_after_going_back"
   ],
   "note": ""
  },
  {
   "property": "C89",
   "status": "proved",
   "theorems": [
    "Verif.C89_without_panics",
    "Verif.C89_still_authentic",
    "Verif.C89_getters_return",
    "Verif.C89_feed_inav_returns",
    "Verif.C89_panics_iff",
    "Verif.C89_every_panic",
    "Verif.C89_panics_before_any_update",
    "Verif.C89_nothing_else_changed",
    "Verif.C89_same_dsm_not_again",
    "Verif.C89_what_is_left",
    "Verif.C89_case"
   ],
   "note": ""
  },
  {
   "property": "C90",
   "status": "proved",
   "theorems": [
    "Verif.C90_key_accepted",
    "Verif.C90_key_held",
    "Verif.C90_never_panics",
    "Verif.C90_can_join",
    "Verif.C90_kroot_accepted",
    "Verif.C90_authenticates",
    "Verif.C90_from_root_never_panics",
    "Verif.C90_from_root_authenticates"
   ],
   "note": ""
  },
  {
   "property": "C91",
   "status": "proved",
   "theorems": [
    "Verif.C91_public_keys",
    "Verif.C91_alerts",
    "Verif.C91_kroots",
    "Verif.C91_tesla_keys",
    "Verif.C91_genuine_or_broken",
    "Verif.C91_forgery_needs_40_bits",
    "Verif.C91_never_forged",
    "Verif.C91_honest_not_broken"
   ],
   "note": ""
  },
  {
   "property": "C92",
   "status": "proved",
   "theorems": [
    "Verif.C92_tags_before_keys_are_out",
    "Verif.C92_data_before_keys_are_out",
    "Verif.C92_forgery_without_the_keys",
    "Verif.C92_late_signals_can_be_forged"
   ],
   "note": ""
  },
  {
   "property": "C93",
   "status": "proved",
   "theorems": [
    "Verif.C93_same_as_with_p521",
    "Verif.C93_never_p521",
    "Verif.C93_firmware",
    "Verif.C93_firmware_reports"
   ],
   "note": ""
  },
  {
   "property": "C94",
   "status": "proved",
   "theorems": [
    "Verif.C94_root_unused"
   ],
   "note": ""
  },
  {
   "property": "C95",
   "status": "proved",
   "theorems": [
    "Verif.C95_kroot_needs",
    "Verif.C95_kroot_needs_pkr",
    "Verif.C95_get_needs",
    "Verif.C95_get_needs_pkr",
    "Verif.C95_get_takes",
    "Verif.C95_data_to_key",
    "Verif.C95_kroot_exact",
    "Verif.C95_get_needs_kroot",
    "Verif.C95_one_satellite",
    "Verif.C95_one_satellite_slow"
   ],
   "note": ""
  },
  {
   "property": "C96",
   "status": "proved",
   "theorems": [
    "Verif.C96_reference_machine",
    "Verif.C96_machine_deterministic",
    "Verif.C96_settings_irrelevant",
    "Verif.C96_effect_of_a_subframe",
    "Verif.C96_without_panics",
    "Verif.C96_machine_total",
    "Verif.C96_always_goes_on",
    "Verif.C96_caught_deterministic"
   ],
   "note": ""
  },
  {
   "property": "C97",
   "status": "proved",
   "theorems": [
    "Verif.C97_no_more_panics",
    "Verif.C97_kroot_accepted",
    "Verif.C97_key_accepted",
    "Verif.C97_authenticates"
   ],
   "note": ""
  },
  {
   "property": "C98",
   "status": "proved",
   "theorems": [
    "Verif.C98_shown_in_order",
    "Verif.C98_shown_before_sending",
    "Verif.C98_shown_at_the_end",
    "Verif.C98_ascii",
    "Verif.C98_last_answer_missing",
    "Verif.C98_not_halted",
    "Verif.C98_shown_after_panic",
    "Verif.C98_last_line_after_panic",
    "Verif.C98_panic_ends_session"
   ],
   "note": "The transcript is Spec/Transcript. After a panic: C98_shown_after_panic, C98_last_line_after_panic, C98_panic_ends_session; if it is not the black box but a getter that panics (possible only for data of the first 7650 s of week 0) the echo is followed by the status cut off at the first satellite whose getter panics (StatusCutOff in Spec/Transcript). C98_last_answer_missing: finding 25."
  }
 ]
}