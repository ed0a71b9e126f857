{
 "claims": [
  {
   "property": "C01",
   "status": "proved",
   "theorems": [
    "Verif.Props.C01_distance_bits",
    "Verif.Props.C01_distance_zero_iff",
    "Verif.Props.C01_distance_symm",
    "Verif.Props.C01_distance_triangle",
    "Verif.Props.C01_distance_unique",
    "Verif.Props.C01_log2_none_iff",
    "Verif.Props.C01_log2_iff",
    "Verif.Props.C01_prefix32"
   ],
   "note": ""
  },
  {
   "property": "C02",
   "status": "proved",
   "theorems": [
    "Verif.Props.C02_encode_ok_iff",
    "Verif.Props.C02_roundtrip",
    "Verif.Props.C02_encode_injective",
    "Verif.Props.C02_decode_structure",
    "Verif.Props.C02_truncation",
    "Verif.Props.C02_concat",
    "Verif.Props.C02_single_iff"
   ],
   "note": ""
  },
  {
   "property": "C03",
   "status": "proved",
   "theorems": [
    "Verif.Props.C03_v1_roundtrip",
    "Verif.Props.C03_v0_roundtrip",
    "Verif.Props.C03_v0_positions",
    "Verif.Props.C03_unknown_bytes",
    "Verif.Props.C03_v1_total",
    "Verif.Props.C03_v0_canonical",
    "Verif.Props.C03_code_bytes",
    "Verif.Props.C03_all_declined"
   ],
   "note": ""
  },
  {
   "property": "C04",
   "status": "proved",
   "theorems": [
    "Verif.Props.C04_roundtrip",
    "Verif.Props.C04_injective",
    "Verif.Props.C04_unknown_selector",
    "Verif.Props.C04_selector",
    "Verif.Props.C04_canonical_partial",
    "Verif.Props.C04_ping_payload_truncated",
    "Verif.Props.C04_canonical_violated",
    "Verif.Props.C04_request_xor_response",
    "Verif.Props.C04_response_roundtrip",
    "Verif.Props.C04_request_received",
    "Verif.Props.C04_content_selector"
   ],
   "note": "Round trip, injectivity and rejection of unknown selectors are proved in full. The stronger strictness claim (an accepted byte string is the encoding of its message) is false of ping/pong, whose over-long payload is cut: C04_canonical_violated; C04_canonical_partial covers the other six messages."
  },
  {
   "property": "C05",
   "status": "proved",
   "theorems": [
    "Verif.Props.C05_trim",
    "Verif.Props.C05_nodes_fits",
    "Verif.Props.C05_nodes_maximal",
    "Verif.Props.C05_content_fits",
    "Verif.Props.C05_content_maximal",
    "Verif.Props.C05_pong_fits"
   ],
   "note": ""
  },
  {
   "property": "C06",
   "status": "proved",
   "theorems": [
    "Verif.Props.C06_history_roundtrip",
    "Verif.Props.C06_history_injective",
    "Verif.Props.C06_history_strict",
    "Verif.Props.C06_history_unknown_selector",
    "Verif.Props.C06_legacy_roundtrip",
    "Verif.Props.C06_legacy_injective",
    "Verif.Props.C06_legacy_strict",
    "Verif.Props.C06_legacy_unknown_selector",
    "Verif.Props.C06_beacon_roundtrip",
    "Verif.Props.C06_beacon_injective",
    "Verif.Props.C06_beacon_strict",
    "Verif.Props.C06_beacon_unknown_selector",
    "Verif.Props.C06_state_roundtrip",
    "Verif.Props.C06_state_injective",
    "Verif.Props.C06_state_strict",
    "Verif.Props.C06_state_unknown_selector",
    "Verif.Props.C06_lengths",
    "Verif.Props.C06_history_format",
    "Verif.Props.C06_legacy_format",
    "Verif.Props.C06_beacon_format",
    "Verif.Props.C06_state_format",
    "Verif.Props.C06_affected_by_radius"
   ],
   "note": ""
  },
  {
   "property": "C07",
   "status": "proved",
   "theorems": [
    "Verif.Props.C07_layout",
    "Verif.Props.C07_injective",
    "Verif.Props.C07_leading_bits",
    "Verif.Props.C07_cycle_spread",
    "Verif.Props.C07_history_ids",
    "Verif.Props.C07_hashed_ids"
   ],
   "note": ""
  },
  {
   "property": "C08",
   "status": "proved",
   "theorems": [
    "Verif.Props.C08_constructor",
    "Verif.Props.C08_roundtrip",
    "Verif.Props.C08_canonical",
    "Verif.Props.C08_injective",
    "Verif.Props.C08_format"
   ],
   "note": ""
  },
  {
   "property": "C09",
   "status": "proved",
   "theorems": [
    "Verif.Props.C09_asks",
    "Verif.Props.C09_content_asks",
    "Verif.Props.C09_closest_first",
    "Verif.Props.C09_result",
    "Verif.Props.C09_finish_reason"
   ],
   "note": ""
  },
  {
   "property": "C10",
   "status": "partial",
   "theorems": [
    "Verif.Props.C10_stable",
    "Verif.Props.C10_content_stable",
    "Verif.Props.C10_finishes",
    "Verif.Props.C10_content_finishes_partial",
    "Verif.Props.C10_never_stuck",
    "Verif.Props.C10_handed_out",
    "Verif.Props.C10_content_handed_out",
    "Verif.Props.C10_timeout_violated",
    "Verif.Props.C10_dropped_task_violated"
   ],
   "note": "Proved in full for node lookups and for stability. For content lookups C10_content_finishes_partial assumes that every validation task ends with a message; a task that cannot reach the peer ends without one and the lookup then waits until its overall timeout (C10_dropped_task_violated). C10_timeout_violated records that the waiting time of a peer is not examined while a closer uncontacted peer cannot be asked."
  },
  {
   "property": "C11",
   "status": "proved",
   "theorems": [
    "Verif.Props.C11_provenance",
    "Verif.Props.C11_cancelled",
    "Verif.Props.C11_in_order",
    "Verif.Props.C11_one_validation",
    "Verif.Props.C11_exhaustive",
    "Verif.Props.C11_first_confirmed",
    "Verif.Props.C11_local_value_replaces"
   ],
   "note": "C11_local_value_replaces shows the second alternative of the statement at work: the received bytes are then not validated."
  },
  {
   "property": "C12",
   "status": "proved",
   "theorems": [
    "Verif.Props.C12_exactly_once",
    "Verif.Props.C12_returned",
    "Verif.Props.C12_nothing_to_do",
    "Verif.Props.C12_start_time",
    "Verif.Props.C12_independent",
    "Verif.Props.C12_report",
    "Verif.Props.C12_no_abort",
    "Verif.Props.C12_node_lawful",
    "Verif.Props.C12_content_lawful",
    "Verif.Props.C12_node_pool_runs",
    "Verif.Props.C12_id_wrap"
   ],
   "note": "For every kind of lookup (Ops) and every iteration order of the hash map. Ids are counted in 64 bits: C12_id_wrap shows what happens after 2^64 lookups."
  },
  {
   "property": "C13",
   "status": "partial",
   "theorems": [
    "Verif.Props.C13_busy",
    "Verif.Props.C13_free",
    "Verif.Props.C13_again",
    "Verif.Props.C13_stale_partial",
    "Verif.Props.C13_record_peers",
    "Verif.Props.C13_fallback_offered",
    "Verif.Props.C13_fallback_used",
    "Verif.Props.C13_fallback_none",
    "Verif.Props.C13_other_keys",
    "Verif.Props.C13_stale_refresh_violated",
    "Verif.Props.C13_stale_one_at_a_time_violated"
   ],
   "note": "Expiry: the code removes at most one expired key per offer and every refused offer puts the expiry off, so a forgotten transfer can block its key for ever (C13_stale_refresh_violated, C13_stale_one_at_a_time_violated). C13_stale_partial covers the only expired key. The rest is proved for all histories."
  },
  {
   "property": "C14",
   "status": "proved",
   "theorems": [
    "Verif.Props.C14_refused",
    "Verif.Props.C14_no_slot",
    "Verif.Props.C14_verdicts",
    "Verif.Props.C14_accepted_only_if",
    "Verif.Props.C14_accepted_if",
    "Verif.Props.C14_in_progress",
    "Verif.Props.C14_connection"
   ],
   "note": "Stated against the history of the accept queue (record). A key that does not decode or a storage error refuses the whole offer (C14_refused)."
  },
  {
   "property": "C15",
   "status": "proved",
   "theorems": [
    "Verif.Props.C15_sent",
    "Verif.Props.C15_only_offered",
    "Verif.Props.C15_received",
    "Verif.Props.C15_end_to_end"
   ],
   "note": "C15_end_to_end composes handle_offer, the accept codec of both versions, process_accept, payload framing and decode_payload. uTP delivers the bytes."
  },
  {
   "property": "C16",
   "status": "proved",
   "theorems": [
    "Verif.Props.C16_find_nodes_sound",
    "Verif.Props.C16_find_nodes_local",
    "Verif.Props.C16_find_nodes_complete",
    "Verif.Props.C16_find_content_closest",
    "Verif.Props.C16_find_content_complete",
    "Verif.Props.C16_find_content_no_radius",
    "Verif.Props.C16_find_content_kind",
    "Verif.Props.C16_find_content_error"
   ],
   "note": ""
  },
  {
   "property": "C17",
   "status": "proved",
   "theorems": [
    "Verif.Props.C17_distances",
    "Verif.Props.C17_zero",
    "Verif.Props.C17_self_iff"
   ],
   "note": ""
  },
  {
   "property": "C18",
   "status": "partial",
   "theorems": [
    "Verif.Props.C18_greatest_common",
    "Verif.Props.C18_no_common_iff",
    "Verif.Props.C18_malformed",
    "Verif.Props.C18_symmetric",
    "Verif.Props.C18_missing_is_v0",
    "Verif.Props.C18_missing_record_violated",
    "Verif.Props.C18_supported_partial",
    "Verif.Props.C18_record_roundtrip"
   ],
   "note": "A peer whose record has no version entry is treated as V0 even when the local node does not support V0 (C18_missing_record_violated); C18_supported_partial covers all other cases."
  },
  {
   "property": "C19",
   "status": "proved",
   "theorems": [
    "Verif.Props.C19_no_abort",
    "Verif.Props.C19_offer_size",
    "Verif.Props.C19_recipient",
    "Verif.Props.C19_neighborhood",
    "Verif.Props.C19_random",
    "Verif.Props.C19_at_most_eight",
    "Verif.Props.C19_order",
    "Verif.Props.C19_random_cut",
    "Verif.Props.C19_publish",
    "Verif.Props.C19_publish_count_violated",
    "Verif.Props.C19_repeated_item_violated"
   ],
   "note": "For batches of distinct items and tables listing a node once. A repeated item is offered to fewer peers than it should and twice to each (C19_repeated_item_violated); the number reported by a publication counts selected peers, not offers made (C19_publish_count_violated)."
  },
  {
   "property": "C20",
   "status": "proved",
   "theorems": [
    "Verif.Props.C20_history",
    "Verif.Props.C20_insert",
    "Verif.Props.C20_delete",
    "Verif.Props.C20_lookup",
    "Verif.Props.C20_paginate",
    "Verif.Props.C20_ephemeral"
   ],
   "note": ""
  },
  {
   "property": "C21",
   "status": "proved",
   "theorems": [
    "Verif.Props.C21_capacity",
    "Verif.Props.C21_insert",
    "Verif.Props.C21_refused",
    "Verif.Props.C21_total"
   ],
   "note": "The pruning arithmetic (f64) is a parameter; C21_capacity assumes only that above the capacity fewer than all entries fit the target (Arith.Sound), which exact_sound proves for exact arithmetic and double_sound for IEEE doubles (see C106_capacity). C21_insert needs no such assumption."
  },
  {
   "property": "C22",
   "status": "partial",
   "theorems": [
    "Verif.Props.C22_farthest_partial",
    "Verif.Props.C22_radius",
    "Verif.Props.C22_unreported_violated",
    "Verif.Props.C22_full_distance_violated"
   ],
   "note": "Farthest-first (in the indexed 32 bits) and the radius are proved in full. Not every removed entry is reported when an id had been inserted twice (C22_unreported_violated): C22_farthest_partial proves the report complete when the statistics are exact. By full distance the claim is false (C22_full_distance_violated)."
  },
  {
   "property": "C23",
   "status": "proved",
   "theorems": [
    "Verif.Props.C23_open",
    "Verif.Props.C23_reopen",
    "Verif.Props.C23_other_node"
   ],
   "note": ""
  },
  {
   "property": "C24",
   "status": "partial",
   "theorems": [
    "Verif.Props.C24_at_least_partial",
    "Verif.Props.C24_exact_partial",
    "Verif.Props.C24_ephemeral_partial",
    "Verif.Props.C24_duplicate_violated"
   ],
   "note": "False for repeated insertion (C24_duplicate_violated). Proved: never less than real usage, exact while no stored key is inserted again, exact after each restart (C23_open)."
  },
  {
   "property": "C25",
   "status": "proved",
   "theorems": [
    "Verif.Props.C25_combined_total",
    "Verif.Props.C25_equal_shares",
    "Verif.Props.C25_not_enabled",
    "Verif.Props.C25_specific",
    "Verif.Props.C25_specific_refused",
    "Verif.Props.C25_inactive_panics"
   ],
   "note": "C25_inactive_panics records that a combined configuration for a subnetwork outside the active list panics, as in the code."
  },
  {
   "property": "C26",
   "status": "proved",
   "theorems": [
    "Verif.Props.C26_open",
    "Verif.Props.C26_open_ok_iff",
    "Verif.Props.C26_matching_unchanged",
    "Verif.Props.C26_history",
    "Verif.Props.C26_first_open"
   ],
   "note": ""
  },
  {
   "property": "C27",
   "status": "proved",
   "theorems": [
    "Verif.Props.C27_reopens",
    "Verif.Props.C27_bootstrap",
    "Verif.Props.C27_bootstrap_kept",
    "Verif.Props.C27_updates",
    "Verif.Props.C27_updates_missing",
    "Verif.Props.C27_updates_kept",
    "Verif.Props.C27_finality",
    "Verif.Props.C27_optimistic",
    "Verif.Props.C27_summaries",
    "Verif.Props.C27_offer",
    "Verif.Props.C27_offer_range",
    "Verif.Props.C27_partial_range_violated",
    "Verif.Props.C27_wrapping_range_violated",
    "Verif.Props.C27_bootstrap_key_violated",
    "Verif.Props.C27_regress_violated",
    "Verif.Props.C27_lost_update_violated"
   ],
   "note": "Light client types enter through their codecs; chain head updates are in C28. Recorded as violations of wider readings: a partly stored range is declined but not returned, a range passing 2^64 is answered with an empty list, a bootstrap is stored under its header root whatever the key, older finality updates and summaries replace newer ones, failed update writes are not reported."
  },
  {
   "property": "C28",
   "status": "proved",
   "theorems": [
    "Verif.Props.C28_step",
    "Verif.Props.C28_step_takes",
    "Verif.Props.C28_monotone",
    "Verif.Props.C28_is_maximum",
    "Verif.Props.C28_finalized_le_latest",
    "Verif.Props.C28_summary_lookup",
    "Verif.Props.C28_summary_pre_capella"
   ],
   "note": ""
  },
  {
   "property": "C29",
   "status": "proved",
   "theorems": [
    "Verif.Props.C29_length",
    "Verif.Props.C29_sound",
    "Verif.Props.C29_binding",
    "Verif.Props.C29_complete",
    "Verif.Props.C29_collision"
   ],
   "note": ""
  },
  {
   "property": "C30",
   "status": "proved",
   "theorems": [
    "Verif.Props.C30_generated_proof_verifies",
    "Verif.Props.C30_push",
    "Verif.Props.C30_push_all",
    "Verif.Props.C30_finalize_snapshot"
   ],
   "note": ""
  },
  {
   "property": "C31",
   "status": "proved",
   "theorems": [
    "Verif.Props.C31_sound",
    "Verif.Props.C31_unique"
   ],
   "note": ""
  },
  {
   "property": "C32",
   "status": "proved",
   "theorems": [
    "Verif.Props.C32_roots_sound",
    "Verif.Props.C32_capella_sound",
    "Verif.Props.C32_deneb_sound",
    "Verif.Props.C32_kind",
    "Verif.Props.C32_roots_unique",
    "Verif.Props.C32_capella_unique",
    "Verif.Props.C32_deneb_unique"
   ],
   "note": ""
  },
  {
   "property": "C33",
   "status": "partial",
   "theorems": [
    "Verif.Props.C33_violated",
    "Verif.Props.C33_no_abort_partial"
   ],
   "note": "Violated for merge-to-Capella proofs whose slot lies beyond the frozen list of historical roots (C33_violated); C33_no_abort_partial proves that nothing else aborts."
  },
  {
   "property": "C34",
   "status": "proved",
   "theorems": [
    "Verif.Props.C34_number_node",
    "Verif.Props.C34_built_proof_accepted",
    "Verif.Props.C34_mismatch"
   ],
   "note": ""
  },
  {
   "property": "C35",
   "status": "proved",
   "theorems": [
    "Verif.Props.C35_before_capella",
    "Verif.Props.C35_cache_hit",
    "Verif.Props.C35_cache_miss",
    "Verif.Props.C35_all_lookups"
   ],
   "note": ""
  },
  {
   "property": "C36",
   "status": "proved",
   "theorems": [
    "Verif.Props.C36_node_sound",
    "Verif.Props.C36_account_sound",
    "Verif.Props.C36_account_unique",
    "Verif.Props.C36_account_complete",
    "Verif.Props.C36_node_complete",
    "Verif.Props.C36_no_root",
    "Verif.Props.C36_ends",
    "Verif.Props.C36_no_panic",
    "Verif.Props.C36_full_depth_violated"
   ],
   "note": "C36_full_depth_violated records an account at the full depth of the trie for which the code accepts no proof; the soundness claim is not affected."
  },
  {
   "property": "C37",
   "status": "proved",
   "theorems": [
    "Verif.Props.C37_hash",
    "Verif.Props.C37_proofs",
    "Verif.Props.C37_wrong_form",
    "Verif.Props.C37_no_panic",
    "Verif.Props.C37_block_hash_ignored"
   ],
   "note": "The state root is the one in the proof: the check against a header is disabled in the code (C37_block_hash_ignored)."
  },
  {
   "property": "C38",
   "status": "partial",
   "theorems": [
    "Verif.Props.C38_layout",
    "Verif.Props.C38_write",
    "Verif.Props.C38_roundtrip",
    "Verif.Props.C38_strict",
    "Verif.Props.C38_truncated_partial",
    "Verif.Props.C38_reserved",
    "Verif.Props.C38_abort_iff",
    "Verif.Props.C38_abort_violated",
    "Verif.Props.C38_stream",
    "Verif.Props.C38_stream_strict"
   ],
   "note": "Round trip, strictness and refusal of truncated records and nonzero reserved fields are proved in full. The reader aborts instead of returning an error on exactly the files described by C38_abort_iff (C38_abort_violated)."
  },
  {
   "property": "C39",
   "status": "proved",
   "theorems": [
    "Verif.Props.C39_era1_write",
    "Verif.Props.C39_era1_roundtrip",
    "Verif.Props.C39_era1_strict",
    "Verif.Props.C39_era1_count_violated",
    "Verif.Props.C39_e2hs_write",
    "Verif.Props.C39_e2hs_roundtrip",
    "Verif.Props.C39_e2hs_strict",
    "Verif.Props.C39_e2hs_count_violated",
    "Verif.Props.C39_writer_offsets",
    "Verif.Props.C39_writer_finish",
    "Verif.Props.C39_writer_ok"
   ],
   "note": "Round trip, strictness and offsets are proved in full. C39_era1_count_violated and C39_e2hs_count_violated record that a block count above the number of blocks aborts."
  },
  {
   "property": "C40",
   "status": "proved",
   "theorems": [
    "Verif.Props.C40_apply",
    "Verif.Props.C40_advance",
    "Verif.Props.C40_sync",
    "Verif.Props.C40_finalized_supermajority",
    "Verif.Props.C40_head",
    "Verif.Props.C40_progress",
    "Verif.Props.C40_watch"
   ],
   "note": ""
  },
  {
   "property": "C41",
   "status": "proved",
   "theorems": [
    "Verif.Props.C41_step",
    "Verif.Props.C41_advance",
    "Verif.Props.C41_history",
    "Verif.Props.C41_checkpoint_step",
    "Verif.Props.C41_checkpoint",
    "Verif.Props.C41_header_binding",
    "Verif.Props.C41_committee_binding",
    "Verif.Props.C41_finalized_binding",
    "Verif.Props.C41_next_binding",
    "Verif.Props.C41_proofs_exist"
   ],
   "note": "Honest signing and genuine states are hypotheses about the messages of the history (Honest, HonestBootstrap); C41_finalized_binding, C41_next_binding, C41_committee_binding and C41_header_binding reduce the state part to the absence of collisions among hashed pairs."
  },
  {
   "property": "C42",
   "status": "proved",
   "theorems": [
    "Verif.Props.C42_bootstrap",
    "Verif.Props.C42_binding",
    "Verif.Props.C42_no_bootstrap",
    "Verif.Props.C42_future_violated"
   ],
   "note": "C42_future_violated records that a bootstrap of a future slot underflows in the age check before anything else is checked."
  },
  {
   "property": "C43",
   "status": "proved",
   "theorems": [
    "Verif.Props.C43_bucket",
    "Verif.Props.C43_bucket_complete",
    "Verif.Props.C43_unique_bits",
    "Verif.Props.C43_unique_bits_panics"
   ],
   "note": ""
  },
  {
   "property": "C44",
   "status": "proved",
   "theorems": [
    "Verif.Props.C44_roundtrip",
    "Verif.Props.C44_accepts_iff",
    "Verif.Props.C44_value",
    "Verif.Props.C44_injective",
    "Verif.Props.C44_compact_not_injective"
   ],
   "note": ""
  },
  {
   "property": "C45",
   "status": "proved",
   "theorems": [
    "Verif.Props.C45_weight_bounds",
    "Verif.Props.C45_weight_value",
    "Verif.Props.C45_not_interested",
    "Verif.Props.C45_weight_no_overflow",
    "Verif.Props.C45_selection",
    "Verif.Props.C45_tracked_iff",
    "Verif.Props.C45_history_bounded",
    "Verif.Props.C45_scheduled_tracked",
    "Verif.Props.C45_success_recorded"
   ],
   "note": ""
  },
  {
   "property": "C46",
   "status": "partial",
   "theorems": [
    "Verif.Props.C46_cover_partial",
    "Verif.Props.C46_overflow_violated"
   ],
   "note": "C46_cover_partial holds for every range that does not touch the last u64 epoch; there the end of the last part overflows (C46_overflow_violated)."
  },
  {
   "property": "C47",
   "status": "proved",
   "theorems": [
    "Verif.Props.C47_never_over_limit",
    "Verif.Props.C47_granted_iff_free",
    "Verif.Props.C47_all_returned",
    "Verif.Props.C47_release_once"
   ],
   "note": ""
  },
  {
   "property": "C48",
   "status": "proved",
   "theorems": [
    "Verif.Props.C48_radius_is_latest_report",
    "Verif.Props.C48_unknown_not_added",
    "Verif.Props.C48_ignored",
    "Verif.Props.C48_capabilities_recorded",
    "Verif.Props.C48_record_requested",
    "Verif.Props.C48_answer",
    "Verif.Props.C48_exchange",
    "Verif.Props.C48_ping_type",
    "Verif.Props.C48_subnetwork_lists"
   ],
   "note": ""
  },
  {
   "property": "C49",
   "status": "proved",
   "theorems": [
    "Verif.Props.C49_payload_roundtrip",
    "Verif.Props.C49_payload_canonical",
    "Verif.Props.C49_client_info_roundtrip",
    "Verif.Props.C49_client_info_canonical"
   ],
   "note": ""
  },
  {
   "property": "C50",
   "status": "proved",
   "theorems": [
    "Verif.Props.C50_roots",
    "Verif.Props.C50_capella",
    "Verif.Props.C50_deneb",
    "Verif.Props.C50_commits"
   ],
   "note": ""
  },
  {
   "property": "C51",
   "status": "proved",
   "theorems": [
    "Verif.Props.C51_state_roundtrip",
    "Verif.Props.C51_state_canonical",
    "Verif.Props.C51_state_format"
   ],
   "note": ""
  },
  {
   "property": "C52",
   "status": "partial",
   "theorems": [
    "Verif.Props.C52_progress_partial",
    "Verif.Props.C52_no_progress",
    "Verif.Props.C52_progress_violated"
   ],
   "note": "The code overwrites the progress flag for each named peer, so only the last named peer decides (C52_progress_violated); C52_progress_partial covers a closest peer that is named last."
  },
  {
   "property": "C53",
   "status": "partial",
   "theorems": [
    "Verif.Props.C53_only_validated",
    "Verif.Props.C53_propagated",
    "Verif.Props.C53_stored_in_order",
    "Verif.Props.C53_keys_freed_partial",
    "Verif.Props.C53_fallback_requests",
    "Verif.Props.C53_keys_freed_violated"
   ],
   "note": "Keys not affected by the radius (beacon network) are not freed when their transfer fails (C53_keys_freed_violated); C53_keys_freed_partial covers all others. Fallback requests of one transfer run one after the other in the model."
  },
  {
   "property": "C54",
   "status": "proved",
   "theorems": [
    "Verif.Props.C54_roundtrip",
    "Verif.Props.C54_canonical",
    "Verif.Props.C54_format",
    "Verif.Props.C54_accepts",
    "Verif.Props.C54_unknown_fork",
    "Verif.Props.C54_abort",
    "Verif.Props.C54_abort_range",
    "Verif.Props.C54_total_violated"
   ],
   "note": "Values shorter than the four digest bytes are not refused but abort the decoding task: C54_abort and C54_abort_range say exactly when, C54_total_violated gives witnesses."
  },
  {
   "property": "C55",
   "status": "proved",
   "theorems": [
    "Verif.Props.C55_accepts",
    "Verif.Props.C55_no_abort",
    "Verif.Props.C55_summaries_binding",
    "Verif.Props.C55_summaries_sound",
    "Verif.Props.C55_summaries_complete",
    "Verif.Props.C55_optimistic_canonical",
    "Verif.Props.C55_key_ignored",
    "Verif.Props.C55_committee_unchecked",
    "Verif.Props.C55_execution_unchecked",
    "Verif.Props.C55_unchecked",
    "Verif.Props.C55_one_signer_violated",
    "Verif.Props.C55_bootstrap_key_violated"
   ],
   "note": "Hashes and signature verification are arbitrary functions. Recorded as violations of wider readings: the key of a bootstrap and the start of a range are not compared with the content, nor are the committee of a bootstrap and execution headers checked; one signature of 512 suffices; without a running light client only the form is checked (C55_key_ignored, C55_bootstrap_key_violated, C55_committee_unchecked, C55_execution_unchecked, C55_one_signer_violated, C55_unchecked)."
  },
  {
   "property": "C56",
   "status": "proved",
   "theorems": [
    "Verif.Props.C56_reachable",
    "Verif.Props.C56_put",
    "Verif.Props.C56_served",
    "Verif.Props.C56_validated",
    "Verif.Props.C56_without_proof",
    "Verif.Props.C56_should_store"
   ],
   "note": "keccak256 and the content id are arbitrary functions; equal ids of different keys are the named exception. The proof inside put content is not checked by the storage (that is C36, C37); only the hash of its last node or code is."
  },
  {
   "property": "C57",
   "status": "partial",
   "theorems": [
    "Verif.Props.C57_encodes",
    "Verif.Props.C57_round_trip",
    "Verif.Props.C57_decode_partial",
    "Verif.Props.C57_unambiguous",
    "Verif.Props.C57_oversized",
    "Verif.Props.C57_uncles_lost",
    "Verif.Props.C57_header_canonical_violated",
    "Verif.Props.C57_body_canonical_violated",
    "Verif.Props.C57_receipts_canonical_violated"
   ],
   "note": "Round trip, soundness of decoding and minimality of the encoding are proved; canonicity is false and its negation is proved for headers, bodies and receipts. RLP and EIP-2718 encodings of the library alloy are assumed faithful (Wire.Faithful: read back whatever follows, and only from bytes beginning with the encoding)."
  },
  {
   "property": "C58",
   "status": "partial",
   "theorems": [
    "Verif.Props.C58_by_hash",
    "Verif.Props.C58_by_number",
    "Verif.Props.C58_hash_unique",
    "Verif.Props.C58_premerge_by_number",
    "Verif.Props.C58_premerge_kind",
    "Verif.Props.C58_body",
    "Verif.Props.C58_receipts",
    "Verif.Props.C58_body_sound",
    "Verif.Props.C58_receipts_sound",
    "Verif.Props.C58_honest_header",
    "Verif.Props.C58_honest_body",
    "Verif.Props.C58_honest_receipts",
    "Verif.Props.C58_withdrawals_violated",
    "Verif.Props.C58_malleable_violated",
    "Verif.Props.C58_ephemeral",
    "Verif.Props.C58_total_violated",
    "Verif.Props.C58_no_abort_partial",
    "Verif.Props.C58_cache"
   ],
   "note": "Withdrawals can be left out (C58_withdrawals_violated), bytes can be appended (C58_malleable_violated with C57), validation of a header of the time between the merge and Shanghai can be made to abort (C58_total_violated). keccak256, the ordered trie root and the tree hash are arbitrary functions; results are up to explicitly exhibited collisions."
  },
  {
   "property": "C59",
   "status": "partial",
   "theorems": [
    "Verif.Props.C59_account",
    "Verif.Props.C59_storage",
    "Verif.Props.C59_code",
    "Verif.Props.C59_account_complete",
    "Verif.Props.C59_storage_complete_partial",
    "Verif.Props.C59_code_known",
    "Verif.Props.C59_code_complete",
    "Verif.Props.C59_repeat",
    "Verif.Props.C59_no_abort",
    "Verif.Props.C59_proof_form_refused",
    "Verif.Props.C59_empty_storage_violated"
   ],
   "note": "An account with the empty storage root cannot be read unless the network has the empty root node, which nobody offers (C59_empty_storage_violated); content in the form with proof is accepted by the validator but refused by the reader (C59_proof_form_refused). keccak256, node, account and RLP string decoding are arbitrary functions with stated hypotheses; soundness is up to exhibited collisions. `block_hash_async` is not implemented in the code and not modelled."
  },
  {
   "property": "C60",
   "status": "partial",
   "theorems": [
    "Verif.Props.C60_header",
    "Verif.Props.C60_block_partial",
    "Verif.Props.C60_balance",
    "Verif.Props.C60_storage",
    "Verif.Props.C60_code",
    "Verif.Props.C60_block_complete",
    "Verif.Props.C60_balance_complete",
    "Verif.Props.C60_storage_complete",
    "Verif.Props.C60_code_complete",
    "Verif.Props.C60_unsupported",
    "Verif.Props.C60_withdrawals_violated"
   ],
   "note": "A block can be returned without its withdrawals (C60_withdrawals_violated, from C58). eth_call is not modelled beyond the state it reads (C59); the size field of a block is not modelled. Up to exhibited collisions, as C58 and C59."
  },
  {
   "property": "C61",
   "status": "partial",
   "theorems": [
    "Verif.Props.C61_identity",
    "Verif.Props.C61_connected_alive",
    "Verif.Props.C61_active_connected_partial",
    "Verif.Props.C61_radius",
    "Verif.Props.C61_records",
    "Verif.Props.C61_tables",
    "Verif.Props.C61_pinged_partial",
    "Verif.Props.C61_ping_tick",
    "Verif.Props.C61_unpinged_violated",
    "Verif.Props.C61_added_unpinged_violated",
    "Verif.Props.C61_pending_unpinged_violated"
   ],
   "note": "The table of discv5 is assumed to follow the contract in Props/RoutingSpec (`Lawful`), without filters; each event may have other choices of the library. Peers that failed once and came back by a request, that were pending, or that the user added are in the table but not in the ping queue (C61_unpinged_violated, C61_pending_unpinged_violated, C61_added_unpinged_violated); C61_pinged_partial covers the others. C61_active_connected_partial leaves out entries that were pending and responses listing the peer's own record. Interleavings inside one event (add_enr between the read and the write of process_ping) are not modelled."
  },
  {
   "property": "C62",
   "status": "proved",
   "theorems": [
    "Verif.Props.C62_sound",
    "Verif.Props.C62_complete",
    "Verif.Props.C62_partial_trie",
    "Verif.Props.C62_missing",
    "Verif.Props.C62_content"
   ],
   "note": "C62_sound needs only a database addressed by hash and a decoder that gives no empty extension prefixes. C62_complete and C62_partial_trie are about genuine tries (`Genuine`): nodes that are contained in their parent refer to nothing by hash (they have less than 32 bytes). Node decoding (eth_trie) is a parameter."
  },
  {
   "property": "C63",
   "status": "proved",
   "theorems": [
    "Verif.Props.C63_exact",
    "Verif.Props.C63_new",
    "Verif.Props.C63_partition",
    "Verif.Props.C63_cover",
    "Verif.Props.C63_walks"
   ],
   "note": "Filter::random is Filter::new with a random index. The bounds are modelled as numbers below 2^256 with wrapping arithmetic."
  },
  {
   "property": "C64",
   "status": "proved",
   "theorems": [
    "Verif.Props.C64_snapshot",
    "Verif.Props.C64_bridge_id",
    "Verif.Props.C64_one_bridge",
    "Verif.Props.C64_all_bridges"
   ],
   "note": "The hypotheses on the state (`State`) are facts of every Ethereum state that fits the content types: leaves of accounts are stored by hash, nodes have at most 1024 bytes and code at most 32768. `NoEmptyKeys` excludes account leaves at the full depth of 64 nibbles, whose content no validator accepts (disagreement of C36). Sending the offers is C45/C47."
  },
  {
   "property": "C65",
   "status": "partial",
   "theorems": [
    "Verif.Props.C65_reads_partial",
    "Verif.Props.C65_no_account_partial",
    "Verif.Props.C65_state_root_partial",
    "Verif.Props.C65_window_partial",
    "Verif.Props.C65_genesis_hash_violated",
    "Verif.Props.C65_code_as_address_violated",
    "Verif.Props.C65_code_as_number_violated"
   ],
   "note": "Full claim fails in two ways (`_violated` theorems): accounts, codes and block hashes share one key space, so a code that equals the bytes of an address or of a 32-byte block number overwrites that record; and the hash of the genesis block is never stored. The partial theorems exclude such codes (`CodesApart`). `LargeNodes` (account trie nodes have more than 32 bytes) holds for every account trie node stored by hash, since an account leaf has more than 64 bytes. eth_trie and RLP are parameters with the contract `Lib.Sound`; RocksDB is a map, without I/O errors. Collisions are excluded only between the byte strings that the history names."
  },
  {
   "property": "C66",
   "status": "proved",
   "theorems": [
    "Verif.Props.C66_changes",
    "Verif.Props.C66_bridge_complete",
    "Verif.Props.C66_storage_cache",
    "Verif.Props.C66_new_codes",
    "Verif.Props.C66_cleared",
    "Verif.Props.C66_map"
   ],
   "note": "`Changes` says what the trie library gives as the difference: at least every node that the old state did not have at that path. `Apart` excludes collisions between nodes of the old and the new state only. C66_storage_cache and C66_new_codes show that the caches of EvmDB have these nodes and codes."
  },
  {
   "property": "C67",
   "status": "partial",
   "theorems": [
    "Verif.Props.C67_blocks_in_order",
    "Verif.Props.C67_resume_partial",
    "Verif.Props.C67_done",
    "Verif.Props.C67_progress",
    "Verif.Props.C67_stop",
    "Verif.Props.C67_root_checked",
    "Verif.Props.C67_refused",
    "Verif.Props.C67_crash_in_commit_violated",
    "Verif.Props.C67_bad_block_violated",
    "Verif.Props.C67_retry_violated",
    "Verif.Props.C67_download_violated",
    "Verif.Props.C67_block_hash_violated"
   ],
   "note": "Holds for crashes between blocks (C67_resume_partial), if the blocks executed since the last commit and the depth of BLOCKHASH reads add up to at most 256. Fails for crashes during a commit (C67_crash_in_commit_violated), for a block with a wrong state root (C67_bad_block_violated), for block hashes after a crash (C67_block_hash_violated); a process that goes on after an error skips a block (C67_retry_violated) or never gets one again (C67_download_violated)."
  },
  {
   "property": "C68",
   "status": "partial",
   "theorems": [
    "Verif.Props.C68_fork_rules",
    "Verif.Props.C68_fork_partial",
    "Verif.Props.C68_prague_violated",
    "Verif.Props.C68_payments",
    "Verif.Props.C68_dao",
    "Verif.Props.C68_execute_partial",
    "Verif.Props.C68_set_code_violated",
    "Verif.Props.C68_traced"
   ],
   "note": "The specification (BlockExecutorSpec) has its own fork table and payments. Holds before Prague (block 22431084, C68_execute_partial). Later blocks get the rules of Cancun (C68_prague_violated), and set-code transactions stop the process (C68_set_code_violated). The EVM is any function."
  },
  {
   "property": "C69",
   "status": "partial",
   "theorems": [
    "Verif.Props.C69_bundle",
    "Verif.Props.C69_receipts_partial",
    "Verif.Props.C69_follows",
    "Verif.Props.C69_proven",
    "Verif.Props.C69_skipped_slot_violated",
    "Verif.Props.C69_missed_checkpoint_violated",
    "Verif.Props.C69_receipts_violated"
   ],
   "note": "C69_bundle holds for every history and every answer. Receipts are right without reorgs (C69_receipts_partial; C69_receipts_violated: the cache is by block number). C69_follows and C69_proven hold for a chain without reorgs whose checkpoints are all seen and name a block in the first slot of the period. A skipped first slot loses the last block of the period (C69_skipped_slot_violated), a missed checkpoint loses the whole next period (C69_missed_checkpoint_violated)."
  },
  {
   "property": "C70",
   "status": "partial",
   "theorems": [
    "Verif.Props.C70_exact",
    "Verif.Props.C70_valid",
    "Verif.Props.C70_unique",
    "Verif.Props.C70_refused_partial",
    "Verif.Props.C70_base_fee_violated"
   ],
   "note": "C70_exact is an equivalence: built iff it is the block in the beacon block (BlockOf). C70_refused_partial gives the exact conditions for errors and aborts; the part of the claim that does not hold is that a base fee of 2^64 or more aborts instead of giving an error (C70_base_fee_violated)."
  },
  {
   "property": "C71",
   "status": "partial",
   "theorems": [
    "Verif.Props.C71_file",
    "Verif.Props.C71_complete_partial",
    "Verif.Props.C71_links",
    "Verif.Props.C71_retry_violated",
    "Verif.Props.C71_endless_violated"
   ],
   "note": "C71_file (safety, for every archive and node) and C71_complete_partial (honest archives, at most three files) are full; C71_links is exact. Liveness fails in two ways: C71_retry_violated (a failed attempt leaves a temporary file that makes every later attempt fail) and C71_endless_violated (an archive whose era files state the previous index makes the downloads go on for ever). Blocks after Capella are only checked against summaries of the same archive. HTTP, decompression and decoding of downloaded files are inputs; other file system errors are left out."
  },
  {
   "property": "C72",
   "status": "partial",
   "theorems": [
    "Verif.Props.C72_bucket",
    "Verif.Props.C72_provable",
    "Verif.Props.C72_parts",
    "Verif.Props.C72_upload",
    "Verif.Props.C72_upload_empty",
    "Verif.Props.C72_names",
    "Verif.Props.C72_resume",
    "Verif.Props.C72_complete_partial",
    "Verif.Props.C72_order_violated",
    "Verif.Props.C72_listing_violated",
    "Verif.Props.C72_behind_violated",
    "Verif.Props.C72_endless_violated",
    "Verif.Props.C72_skipped_violated"
   ],
   "note": "C72_bucket, C72_provable, C72_parts, C72_upload, C72_names (every input and history), C72_resume and C72_complete_partial (honest nodes that have the state of the first slot of every period, indices below 100000) are full. Fails: C72_skipped_violated (first slot of a period skipped and no state for it: wrong roots, no file), C72_listing_violated (a listing error after the first page is ignored), C72_behind_violated (a node that is behind makes a subtraction underflow), C72_endless_violated (no limit on states that are too early), C72_order_violated (order of keys at index 100000), C72_upload_empty. HTTP, decoding and the S3 protocol are inputs."
  },
  {
   "property": "C73",
   "status": "partial",
   "theorems": [
    "Verif.Props.C73_rpc",
    "Verif.Props.C73_bad_request",
    "Verif.Props.C73_response_exact",
    "Verif.Props.C73_ping_sent",
    "Verif.Props.C73_ping",
    "Verif.Props.C73_ping_error_violated",
    "Verif.Props.C73_find_nodes",
    "Verif.Props.C73_find_content_checked",
    "Verif.Props.C73_find_content_served",
    "Verif.Props.C73_find_content_absent",
    "Verif.Props.C73_offer",
    "Verif.Props.C73_offer_length_violated",
    "Verif.Props.C73_offer_traced",
    "Verif.Props.C73_offer_trace_one",
    "Verif.Props.C73_get_enr",
    "Verif.Props.C73_add_enr",
    "Verif.Props.C73_add_get",
    "Verif.Props.C73_delete_get",
    "Verif.Props.C73_lookup_node",
    "Verif.Props.C73_lookup_enr_partial",
    "Verif.Props.C73_lookup_enr_violated",
    "Verif.Props.C73_find_enr",
    "Verif.Props.C73_put",
    "Verif.Props.C73_put_violated",
    "Verif.Props.C73_matching",
    "Verif.Props.C73_once",
    "Verif.Props.C73_answered",
    "Verif.Props.C73_version_skew_violated",
    "Verif.Props.C73_add_pending_violated",
    "Verif.Props.C73_add_older_violated"
   ],
   "note": "Full: C73_rpc, C73_bad_request, C73_response_exact, C73_ping_sent, C73_ping, C73_find_nodes, C73_find_content_checked, C73_find_content_served, C73_find_content_absent, C73_offer, C73_offer_traced, C73_offer_trace_one, C73_get_enr, C73_lookup_node, C73_add_enr, C73_add_get, C73_delete_get, C73_find_enr, C73_put, C73_matching, C73_once, C73_answered. Partial: C73_lookup_enr_partial (only if all records it is given are of the node asked for). Fails: C73_lookup_enr_violated (record of another node), C73_put_violated (stored_locally although the store failed), C73_version_skew_violated, C73_offer_length_violated, C73_ping_error_violated, C73_add_pending_violated, C73_add_older_violated. discv5 and uTP are functions that deliver or fail."
  },
  {
   "property": "C74",
   "status": "partial",
   "theorems": [
    "Verif.Props.C74_identifiers",
    "Verif.Props.C74_identifiers_distinct",
    "Verif.Props.C74_send_total",
    "Verif.Props.C74_send_violated",
    "Verif.Props.C74_routing",
    "Verif.Props.C74_not_started",
    "Verif.Props.C74_same_network",
    "Verif.Props.C74_unknown_protocol",
    "Verif.Props.C74_networks_separate",
    "Verif.Props.C74_testnets_violated",
    "Verif.Props.C74_event",
    "Verif.Props.C74_event_lost_violated",
    "Verif.Props.C74_start",
    "Verif.Props.C74_timestamp_partial",
    "Verif.Props.C74_timestamp_violated",
    "Verif.Props.C74_slot_clock",
    "Verif.Props.C74_slot_times_partial",
    "Verif.Props.C74_slot_times_violated",
    "Verif.Props.C74_slot_clock_aborts",
    "Verif.Props.C74_cache_latest",
    "Verif.Props.C74_cache_size",
    "Verif.Props.C74_cache_kept",
    "Verif.Props.C74_find_enr_partial",
    "Verif.Props.C74_find_enr_violated",
    "Verif.Props.C74_utp_recv_partial",
    "Verif.Props.C74_utp_recv_violated",
    "Verif.Props.C74_utp_send",
    "Verif.Props.C74_utp_send_violated",
    "Verif.Props.C74_consolidate"
   ],
   "note": "Full: C74_identifiers, C74_identifiers_distinct, C74_send_total, C74_routing, C74_not_started, C74_same_network, C74_unknown_protocol, C74_networks_separate, C74_event, C74_start, C74_timestamp_partial, C74_slot_clock, C74_slot_times_partial, C74_slot_clock_aborts, C74_cache_latest, C74_cache_size, C74_cache_kept, C74_find_enr_partial, C74_utp_recv_partial, C74_utp_send, C74_consolidate. Fails: C74_testnets_violated (the two test networks share identifiers), C74_event_lost_violated, C74_send_violated, C74_slot_times_violated, C74_timestamp_violated, C74_find_enr_violated (older record preferred), C74_utp_recv_violated, C74_utp_send_violated. The channels deliver in order; discv5 itself is not modelled."
  },
  {
   "property": "C75",
   "status": "partial",
   "theorems": [
    "Verif.Props.C75_names",
    "Verif.Props.C75_list",
    "Verif.Props.C75_hex",
    "Verif.Props.C75_radius",
    "Verif.Props.C75_bootnodes",
    "Verif.Props.C75_accepts",
    "Verif.Props.C75_accepts_all",
    "Verif.Props.C75_starts_partial",
    "Verif.Props.C75_aborts",
    "Verif.Props.C75_starts_violated",
    "Verif.Props.C75_storage_violated",
    "Verif.Props.C75_closure",
    "Verif.Props.C75_methods",
    "Verif.Props.C75_overlay_methods"
   ],
   "note": "Full: C75_names, C75_list, C75_hex, C75_radius, C75_bootnodes, C75_accepts, C75_accepts_all, C75_closure, C75_methods, C75_aborts. C75_starts_partial: an accepted command line starts the node, with three exceptions that C75_aborts shows to be all: a subnetwork named twice, an IPC path that is not UTF-8, an HTTP address without a socket address. C75_starts_violated has a witness of each; C75_storage_violated: a subnetwork named twice takes a share of the storage that nothing uses. Text splitting by clap, the file system, the sockets and jsonrpsee are not modelled."
  },
  {
   "property": "C76",
   "status": "partial",
   "theorems": [
    "Verif.Props.C76_mode",
    "Verif.Props.C76_mode_written",
    "Verif.Props.C76_mode_aborts_partial",
    "Verif.Props.C76_mode_aborts_violated",
    "Verif.Props.C76_range",
    "Verif.Props.C76_bridge_id",
    "Verif.Props.C76_settings",
    "Verif.Props.C76_runs",
    "Verif.Props.C76_node",
    "Verif.Props.C76_unsupported",
    "Verif.Props.C76_defaults_violated"
   ],
   "note": "Full: C76_mode, C76_mode_written, C76_range, C76_bridge_id, C76_settings, C76_runs, C76_node, C76_unsupported. C76_mode_aborts_partial characterises the texts that abort instead of being refused (C76_mode_aborts_violated has witnesses); C76_defaults_violated: without flags the process aborts after its node was started, as for every combination of subnetwork and mode without a bridge. clap, census, providers and directories are not modelled."
  },
  {
   "property": "C77",
   "status": "partial",
   "theorems": [
    "Verif.Props.C77_genuine",
    "Verif.Props.C77_accepted",
    "Verif.Props.C77_summaries_accepted",
    "Verif.Props.C77_updates_partial",
    "Verif.Props.C77_finality_partial",
    "Verif.Props.C77_bootstrap_partial",
    "Verif.Props.C77_summaries_partial",
    "Verif.Props.C77_update_served",
    "Verif.Props.C77_finality_served",
    "Verif.Props.C77_optimistic_served",
    "Verif.Props.C77_bootstrap_served",
    "Verif.Props.C77_summaries_served_partial",
    "Verif.Props.C77_summaries_stuck_violated",
    "Verif.Props.C77_overlap_violated",
    "Verif.Props.C77_mixed_violated",
    "Verif.Props.C77_nobody_violated"
   ],
   "note": "Full, for every schedule: C77_genuine, C77_accepted, C77_summaries_accepted, C77_optimistic_served. For schedules in which the short requests are answered before the next tick: C77_updates_partial, C77_finality_partial, C77_bootstrap_partial, C77_summaries_partial, and C77_update_served, C77_finality_served, C77_bootstrap_served, C77_summaries_served_partial. C77_overlap_violated: with overlap all four are announced twice and the finalized slot goes back. C77_summaries_stuck_violated: after one failed download of a state no summaries are announced in any continuation. C77_mixed_violated: root and state are asked for separately. C77_nobody_violated: a period is marked as served although no peer was selected. The outcome of offers (reports, metrics) and timeouts are not modelled."
  },
  {
   "property": "C78",
   "status": "partial",
   "theorems": [
    "Verif.Props.C78_replies",
    "Verif.Props.C78_offered",
    "Verif.Props.C78_once",
    "Verif.Props.C78_complete_partial",
    "Verif.Props.C78_limits",
    "Verif.Props.C78_epochs",
    "Verif.Props.C78_order",
    "Verif.Props.C78_counts",
    "Verif.Props.C78_never_stuck",
    "Verif.Props.C78_ends",
    "Verif.Props.C78_no_panic",
    "Verif.Props.C78_nobody_violated",
    "Verif.Props.C78_missing_violated",
    "Verif.Props.C78_foreign_violated",
    "Verif.Props.C78_zero_limit_violated",
    "Verif.Props.C78_first_missing_violated",
    "Verif.Props.C78_unproven_violated",
    "Verif.Props.C78_latest"
   ],
   "note": "Full for ranges that end at least one epoch below the largest u64: C78_offered, C78_once, C78_complete_partial, C78_limits, C78_epochs, C78_order, C78_counts, C78_never_stuck, C78_ends, C78_no_panic, C78_latest. Violations: C78_missing_violated and C78_first_missing_violated (one missing or broken file stops everything), C78_zero_limit_violated (a limit of 0 waits forever), C78_unproven_violated (proofs of headers since Capella are not looked at), C78_foreign_violated (whole epochs are not filtered by block number), C78_nobody_violated (a failed selection of peers is not repeated). Metrics, logs and the retries of the request for the list of files are not modelled."
  },
  {
   "property": "C79",
   "status": "partial",
   "theorems": [
    "Verif.Props.C79_stable",
    "Verif.Props.C79_identity_partial",
    "Verif.Props.C79_running",
    "Verif.Props.C79_ephemeral",
    "Verif.Props.C79_ephemeral_new",
    "Verif.Props.C79_custom",
    "Verif.Props.C79_starts",
    "Verif.Props.C79_dir_name",
    "Verif.Props.C79_dir_violated",
    "Verif.Props.C79_crash_violated",
    "Verif.Props.C79_race_violated",
    "Verif.Props.C79_mixed_violated"
   ],
   "note": "C79_stable (from any state in which nobody writes the key file), C79_identity_partial (starts one after another, none stopped while it fills the key file), C79_running, C79_ephemeral, C79_ephemeral_new, C79_custom, C79_starts, C79_dir_name. Violations: C79_crash_violated (a first start stopped while it fills the key file leaves the directory unusable without a given key for ever), C79_race_violated (two first starts at once: both run, one identity is lost), C79_mixed_violated (with a crash of one of them the key is a mixture that nobody generated), C79_dir_violated (ids with the same first four bytes share a node directory). Removal of files from outside, symbolic links and permissions are not modelled."
  },
  {
   "property": "C80",
   "status": "partial",
   "theorems": [
    "Verif.Props.C80_reads",
    "Verif.Props.C80_write",
    "Verif.Props.C80_roundtrip",
    "Verif.Props.C80_forks",
    "Verif.Props.C80_one_fork",
    "Verif.Props.C80_state",
    "Verif.Props.C80_first",
    "Verif.Props.C80_contains_partial",
    "Verif.Props.C80_contains_violated",
    "Verif.Props.C80_number",
    "Verif.Props.C80_early_violated",
    "Verif.Props.C80_no_abort_partial",
    "Verif.Props.C80_short_violated",
    "Verif.Props.C80_optional_violated",
    "Verif.Props.C80_index_violated"
   ],
   "note": "C80_reads (exact), C80_write, C80_roundtrip, C80_forks, C80_one_fork, C80_state, C80_first (files below 4 GB), C80_contains_partial (blocks with consecutive numbers), C80_no_abort_partial. Violations: C80_early_violated and C80_short_violated (aborts), C80_optional_violated (records that the documented format allows are not read), C80_index_violated (offsets and count of the index are not checked), C80_contains_violated (the era of the merge). SSZ and snappy are arbitrary functions with the round trip as hypothesis."
  },
  {
   "property": "C81",
   "status": "partial",
   "theorems": [
    "Verif.Props.C81_name",
    "Verif.Props.C81_write",
    "Verif.Props.C81_read_partial",
    "Verif.Props.C81_read_only",
    "Verif.Props.C81_truncated_violated",
    "Verif.Props.C81_import_accepts",
    "Verif.Props.C81_import_once",
    "Verif.Props.C81_import_position",
    "Verif.Props.C81_export_only",
    "Verif.Props.C81_export",
    "Verif.Props.C81_roundtrip",
    "Verif.Props.C81_hashes_violated",
    "Verif.Props.C81_ghost_violated"
   ],
   "note": "C81_name, C81_write and C81_read_only (exact), C81_read_partial, C81_import_accepts (exact), C81_import_once, C81_import_position, C81_export, C81_export_only (no file is overwritten), C81_roundtrip (with the hypotheses of C65: hashes do not collide, and no code is an address or a number). Violations: C81_truncated_violated (a file that ends inside an account reads as a shorter one), C81_hashes_violated (the position is written before the block hashes, a failure there cannot be repaired), C81_ghost_violated (accounts of a failed import are read later). RLP, snappy and the tries are arbitrary functions with stated expectations; that the account trie is found again under its root is not modelled."
  },
  {
   "property": "C82",
   "status": "partial",
   "theorems": [
    "Verif.Props.C82_start",
    "Verif.Props.C82_runs",
    "Verif.Props.C82_once",
    "Verif.Props.C82_found",
    "Verif.Props.C82_trace",
    "Verif.Props.C82_cancelled",
    "Verif.Props.C82_requests",
    "Verif.Props.C82_timeout",
    "Verif.Props.C82_poke",
    "Verif.Props.C82_effects",
    "Verif.Props.C82_valid_found",
    "Verif.Props.C82_newest",
    "Verif.Props.C82_told",
    "Verif.Props.C82_failures_partial",
    "Verif.Props.C82_rpc",
    "Verif.Props.C82_named_violated",
    "Verif.Props.C82_cancelled_violated",
    "Verif.Props.C82_failures_violated",
    "Verif.Props.C82_stalls_violated",
    "Verif.Props.C82_local_violated"
   ],
   "note": "C82_start, C82_runs, C82_once, C82_found, C82_valid_found, C82_requests, C82_timeout, C82_trace, C82_newest, C82_cancelled, C82_poke, C82_effects (exact), C82_rpc for every history; C82_failures_partial needs the event to be handled before the end. Violations: C82_named_violated (nodes that were known are not listed under who named them), C82_cancelled_violated (without content the list of awaited peers is that of an earlier time), C82_failures_violated (a failure can be missing), C82_stalls_violated (no common version: other peers are not asked any more), C82_local_violated (content missing locally is error -32099). The lookup is one among others; what the rest of the node does is an argument of the events. Sane: discv5 and the routing table return ENRs of the node they are asked for."
  },
  {
   "property": "C83",
   "status": "partial",
   "theorems": [
    "Verif.Props.C83_answers",
    "Verif.Props.C83_invalid",
    "Verif.Props.C83_state_exact",
    "Verif.Props.C83_beacon_exact",
    "Verif.Props.C83_given",
    "Verif.Props.C83_legacy_exact_partial",
    "Verif.Props.C83_legacy_exact_violated",
    "Verif.Props.C83_total_violated",
    "Verif.Props.C83_payloads",
    "Verif.Props.C83_format",
    "Verif.Props.C83_trace_format",
    "Verif.Props.C83_discv5_lookup",
    "Verif.Props.C83_discv5_right",
    "Verif.Props.C83_discv5_fails",
    "Verif.Props.C83_discv5_peer_violated",
    "Verif.Props.C83_discv5_distance_violated",
    "Verif.Props.C83_node_info"
   ],
   "note": "C83_answers (all methods), C83_invalid, C83_state_exact, C83_beacon_exact, C83_given, C83_payloads, C83_format, C83_trace_format, C83_discv5_lookup (exact), C83_discv5_right, C83_node_info. C83_legacy_exact_partial: in the legacy history network the bytes are the encoding of the value that was read, no longer than those given. Violations: C83_legacy_exact_violated (other bytes than those given are stored), C83_total_violated (a beacon value of fewer than four bytes panics), C83_discv5_peer_violated (one silent peer ends the lookup), C83_discv5_distance_violated (peers are asked only for distance 256). Parameters are taken as parsed; the JSON of light client updates and of ping payloads in requests, and the text of ENRs and numbers, are arguments that can be read back. The other discv5 methods, which pass a result on, and web3 methods are not modelled."
  },
  {
   "property": "C84",
   "status": "partial",
   "theorems": [
    "Verif.Props.C84_plain",
    "Verif.Props.C84_anchor",
    "Verif.Props.C84_follows",
    "Verif.Props.C84_no_services",
    "Verif.Props.C84_attempts",
    "Verif.Props.C84_requests",
    "Verif.Props.C84_turn_requests",
    "Verif.Props.C84_head_age",
    "Verif.Props.C84_head",
    "Verif.Props.C84_alive_partial",
    "Verif.Props.C84_pause_partial",
    "Verif.Props.C84_pause_violated",
    "Verif.Props.C84_precedence",
    "Verif.Props.C84_network",
    "Verif.Props.C84_built",
    "Verif.Props.C84_chain_id",
    "Verif.Props.C84_bootstrap_answer",
    "Verif.Props.C84_finality_answer",
    "Verif.Props.C84_optimistic_answer",
    "Verif.Props.C84_updates_answer",
    "Verif.Props.C84_default_url_violated",
    "Verif.Props.C84_saved",
    "Verif.Props.C84_torn",
    "Verif.Props.C84_source",
    "Verif.Props.C84_pick",
    "Verif.Props.C84_lone_service_violated",
    "Verif.Props.C84_url",
    "Verif.Props.C84_downgrade_violated",
    "Verif.Props.C84_left_violated",
    "Verif.Props.C84_empty_answer_violated",
    "Verif.Props.C84_sepolia_violated"
   ],
   "note": "C84_anchor, C84_follows, C84_no_services, C84_attempts, C84_requests, C84_turn_requests, C84_head_age, C84_head, C84_alive_partial, C84_pause_partial, C84_precedence, C84_network, C84_built, C84_chain_id, C84_bootstrap_answer, C84_updates_answer, C84_finality_answer, C84_optimistic_answer, C84_saved, C84_torn, C84_source, C84_pick, C84_url. Violations: C84_downgrade_violated (the age of a bootstrap is tested before its root, so that an RPC can move a client to the checkpoint of a service), C84_left_violated, C84_empty_answer_violated, C84_lone_service_violated, C84_pause_violated, C84_default_url_violated, C84_sepolia_violated. C84_alive_partial assumes that requests do not abort (Unfailing); values of fewer than four bytes do (C54_abort). Verification of a message is the model of C40 to C42; hashing and signatures are arguments. HTTP and YAML are answers of the environment."
  },
  {
   "property": "C85",
   "status": "partial",
   "theorems": [
    "Verif.Props.C85_start",
    "Verif.Props.C85_runs",
    "Verif.Props.C85_once",
    "Verif.Props.C85_requests",
    "Verif.Props.C85_pending",
    "Verif.Props.C85_answer_partial",
    "Verif.Props.C85_finish",
    "Verif.Props.C85_ends",
    "Verif.Props.C85_target_violated",
    "Verif.Props.C85_lookup_enr_violated",
    "Verif.Props.C85_initial_partial",
    "Verif.Props.C85_initial_farthest_violated",
    "Verif.Props.C85_refresh",
    "Verif.Props.C85_refresh_all",
    "Verif.Props.C85_asks_itself_violated",
    "Verif.Props.C85_stale_violated"
   ],
   "note": "C85_start, C85_runs, C85_once, C85_requests, C85_pending, C85_answer_partial, C85_finish, C85_ends, C85_initial_partial, C85_refresh, C85_refresh_all. Violations: C85_target_violated (no answer ever has the target, which is skipped as if it had failed), C85_lookup_enr_violated (so lookup_enr of a node outside the table yields the record of another node), C85_initial_farthest_violated (the farthest bucket, half of all nodes, is not looked up at the start), C85_asks_itself_violated, C85_stale_violated. Assumes at most 127 distances and that what discv5 and the table know about an id is a record of that id. One lookup is modelled, with the rest of the node as arguments of its events; failed requests are not reported to it, as in the code."
  },
  {
   "property": "C86",
   "status": "partial",
   "theorems": [
    "Verif.Props.C86_view",
    "Verif.Props.C86_selected",
    "Verif.Props.C86_nobody",
    "Verif.Props.C86_record",
    "Verif.Props.C86_gap",
    "Verif.Props.C86_due",
    "Verif.Props.C86_scheduled_partial",
    "Verif.Props.C86_check",
    "Verif.Props.C86_newest",
    "Verif.Props.C86_order",
    "Verif.Props.C86_again",
    "Verif.Props.C86_init_running",
    "Verif.Props.C86_init_done",
    "Verif.Props.C86_init_ends",
    "Verif.Props.C86_no_peers_violated",
    "Verif.Props.C86_no_peers_error",
    "Verif.Props.C86_forgotten",
    "Verif.Props.C86_forgotten_violated",
    "Verif.Props.C86_claimed_record_violated",
    "Verif.Props.C86_routing",
    "Verif.Props.C86_start",
    "Verif.Props.C86_once",
    "Verif.Props.C86_retry_violated"
   ],
   "note": "C86_view, C86_selected, C86_nobody, C86_record, C86_gap, C86_due, C86_check, C86_newest, C86_order, C86_init_running, C86_init_done, C86_init_ends, C86_no_peers_error, C86_forgotten, C86_routing, C86_start, C86_once, C86_again. C86_scheduled_partial: only for nodes that never answered oddly. Violations: C86_no_peers_violated (when nobody answers the exploration never ends and no error is reported), C86_forgotten_violated (a peer that answers one ping with another extension is never checked again by the schedule and stays selectable), C86_claimed_record_violated (the record sent may be older than claimed), C86_retry_violated (a failed start cannot be repeated). Checks of one round run one after the other (C86_order); the limit on concurrent requests and the timing of discovery are not modelled; the f64 comparison with a tenth is done exactly."
  },
  {
   "property": "C87",
   "status": "partial",
   "theorems": [
    "Verif.Props.C87_limit",
    "Verif.Props.C87_asked",
    "Verif.Props.C87_items",
    "Verif.Props.C87_bundle",
    "Verif.Props.C87_final",
    "Verif.Props.C87_order",
    "Verif.Props.C87_records",
    "Verif.Props.C87_reply",
    "Verif.Props.C87_gives_up",
    "Verif.Props.C87_bounded",
    "Verif.Props.C87_progress",
    "Verif.Props.C87_ends_partial",
    "Verif.Props.C87_limit_one_violated",
    "Verif.Props.C87_gap_violated",
    "Verif.Props.C87_census_violated",
    "Verif.Props.C87_series_unrecorded_violated"
   ],
   "note": "C87_limit, C87_asked, C87_items, C87_bundle, C87_final, C87_order, C87_records, C87_bounded, C87_progress, C87_ends_partial. Violations: C87_limit_one_violated (with --offer-limit 1 the limit for headers of final periods is 0 and they wait for ever), C87_gap_violated (one header that cannot be built drops all later ones), C87_census_violated (when the census fails the call returns as usual with nothing offered), C87_series_unrecorded_violated (results of header series are not recorded). Encodings and hashes of blocks are given (C57); metrics are left out; permits may go to any waiting task. C87_reply and C87_gives_up: how offers end, and that an unanswered offer is given up after two minutes and not before."
  },
  {
   "property": "C88",
   "status": "partial",
   "theorems": [
    "Verif.Props.C88_request",
    "Verif.Props.C88_ask",
    "Verif.Props.C88_distinct",
    "Verif.Props.C88_number",
    "Verif.Props.C88_bounded",
    "Verif.Props.C88_receipts",
    "Verif.Props.C88_patient",
    "Verif.Props.C88_range",
    "Verif.Props.C88_abort_partial",
    "Verif.Props.C88_body",
    "Verif.Props.C88_list",
    "Verif.Props.C88_block",
    "Verif.Props.C88_secret",
    "Verif.Props.C88_events",
    "Verif.Props.C88_latest",
    "Verif.Props.C88_headers",
    "Verif.Props.C88_stream",
    "Verif.Props.C88_start",
    "Verif.Props.C88_order_violated",
    "Verif.Props.C88_short_violated",
    "Verif.Props.C88_abort_violated",
    "Verif.Props.C88_height_violated",
    "Verif.Props.C88_error_violated",
    "Verif.Props.C88_path_violated",
    "Verif.Props.C88_secret_violated",
    "Verif.Props.C88_charset_violated"
   ],
   "note": "C88_request, C88_ask, C88_distinct, C88_number, C88_bounded, C88_receipts, C88_patient, C88_range, C88_block, C88_latest, C88_headers, C88_secret, C88_events, C88_stream, C88_start, C88_body, C88_list, C88_abort_partial. Violations: C88_order_violated (answers of a batch are paired by position, not by id), C88_short_violated (a short answer loses blocks silently), C88_abort_violated, C88_height_violated, C88_error_violated (a JSON-RPC error of the primary is final), C88_path_violated (path of a consensus provider is dropped), C88_secret_violated, C88_charset_violated. JSON, SSZ and the parsers are parameters; redirects, TLS and the length of the random pauses are left out."
  },
  {
   "property": "C89",
   "status": "partial",
   "theorems": [
    "Verif.Props.C89_address",
    "Verif.Props.C89_outside",
    "Verif.Props.C89_reachable_partial",
    "Verif.Props.C89_seq",
    "Verif.Props.C89_bootnodes",
    "Verif.Props.C89_start",
    "Verif.Props.C89_mapping",
    "Verif.Props.C89_port_violated",
    "Verif.Props.C89_nostun_violated",
    "Verif.Props.C89_ipv6_violated",
    "Verif.Props.C89_clock_violated",
    "Verif.Props.C89_bootnode_violated",
    "Verif.Props.C89_full_violated"
   ],
   "note": "C89_address, C89_outside, C89_reachable_partial, C89_seq, C89_bootnodes, C89_start, C89_mapping. Violations: C89_port_violated (a gateway replaces the port the user gave), C89_nostun_violated (--no-stun does not leave the address blank), C89_ipv6_violated (IPv6 addresses are published without a port for IPv6), C89_clock_violated, C89_bootnode_violated and C89_full_violated (one bad bootnode, or 17 in one bucket, stop the node). The signature and size of the record are left out, and the table of discv5 is modelled from its documentation."
  },
  {
   "property": "C90",
   "status": "proved",
   "theorems": [
    "Verif.Props.C90_outbound",
    "Verif.Props.C90_inbound",
    "Verif.Props.C90_outcome",
    "Verif.Props.C90_ends",
    "Verif.Props.C90_calls",
    "Verif.Props.C90_counters",
    "Verif.Props.C90_summary"
   ],
   "note": "C90_outbound, C90_inbound, C90_ends, C90_calls, C90_counters, C90_summary, C90_outcome. Streams that are dropped before they end are left out: for them the gauge would stay too high."
  },
  {
   "property": "C91",
   "status": "partial",
   "theorems": [
    "Verif.Props.C91_gives",
    "Verif.Props.C91_dropped",
    "Verif.Props.C91_header",
    "Verif.Props.C91_number",
    "Verif.Props.C91_summaries",
    "Verif.Props.C91_body_partial",
    "Verif.Props.C91_receipts",
    "Verif.Props.C91_accepts",
    "Verif.Props.C91_wants",
    "Verif.Props.C91_transfer",
    "Verif.Props.C91_lookup",
    "Verif.Props.C91_operator_violated"
   ],
   "note": "C91_gives, C91_dropped, C91_header, C91_number, C91_summaries, C91_body_partial, C91_receipts, C91_accepts; C91_transfer and C91_lookup tie the models of transfers (C53) and lookups (C82) to it. Partial because of C91_operator_violated: what the operator puts in is not validated, and a wrong header makes the node accept wrong bodies from peers. Assumed: the keys that occur have different content ids."
  },
  {
   "property": "C92",
   "status": "partial",
   "theorems": [
    "Verif.Props.C92_offered",
    "Verif.Props.C92_limit",
    "Verif.Props.C92_recorded",
    "Verif.Props.C92_reply",
    "Verif.Props.C92_totals",
    "Verif.Props.C92_percentages",
    "Verif.Props.C92_report",
    "Verif.Props.C92_waits",
    "Verif.Props.C92_ends_partial",
    "Verif.Props.C92_no_permits_violated",
    "Verif.Props.C92_after_end",
    "Verif.Props.C92_cut_off_violated",
    "Verif.Props.C92_all_bridges",
    "Verif.Props.C92_range",
    "Verif.Props.C92_range_done",
    "Verif.Props.C92_snapshot",
    "Verif.Props.C92_reused",
    "Verif.Props.C92_imports",
    "Verif.Props.C92_deletes_violated",
    "Verif.Props.C92_stuck_violated",
    "Verif.Props.C92_killed_violated",
    "Verif.Props.C92_number_violated"
   ],
   "note": "C92_offered, C92_limit, C92_reply, C92_recorded, C92_totals, C92_percentages, C92_report, C92_waits, C92_ends_partial, C92_after_end, C92_all_bridges; C92_range, C92_range_done; C92_snapshot, C92_reused, C92_imports. Partial because of C92_cut_off_violated (the process ends without its last offers), C92_no_permits_violated (limit 0), C92_deletes_violated, C92_stuck_violated and C92_killed_violated (a launch that ends between position and block hashes is never repaired), C92_number_violated. The items of a block or snapshot are those of C64 and C66; that the trie of the database holds the nodes they are read from is not joined to this model."
  },
  {
   "property": "C93",
   "status": "partial",
   "theorems": [
    "Verif.Props.C93_lives",
    "Verif.Props.C93_gives",
    "Verif.Props.C93_holds",
    "Verif.Props.C93_keeps",
    "Verif.Props.C93_prune",
    "Verif.Props.C93_oracle",
    "Verif.Props.C93_summaries_kept",
    "Verif.Props.C93_root_partial",
    "Verif.Props.C93_trust",
    "Verif.Props.C93_root_kept",
    "Verif.Props.C93_anchor",
    "Verif.Props.C93_light",
    "Verif.Props.C93_chain",
    "Verif.Props.C93_summaries",
    "Verif.Props.C93_history",
    "Verif.Props.C93_root_violated",
    "Verif.Props.C93_frozen_violated",
    "Verif.Props.C93_periods_violated"
   ],
   "note": "C93_lives, C93_gives, C93_holds, C93_keeps, C93_prune, C93_oracle, C93_summaries_kept; C93_root_partial, C93_trust, C93_root_kept, C93_anchor, C93_light (the events are those of C84); C93_chain, C93_summaries, C93_history (gives the hypothesis on summaries of C91). Partial because of C93_root_violated (before the light client runs a peer chooses the root of the next process), C93_frozen_violated (summaries of a far epoch stay for ever) and C93_periods_violated (ranges are stored for any periods)."
  },
  {
   "property": "C94",
   "status": "partial",
   "theorems": [
    "Verif.Props.C94_stored_partial",
    "Verif.Props.C94_passed_on",
    "Verif.Props.C94_found",
    "Verif.Props.C94_reader",
    "Verif.Props.C94_balance",
    "Verif.Props.C94_storage",
    "Verif.Props.C94_code",
    "Verif.Props.C94_transfer",
    "Verif.Props.C94_lookup",
    "Verif.Props.C94_kept",
    "Verif.Props.C94_snapshot",
    "Verif.Props.C94_snapshot_served",
    "Verif.Props.C94_any_root_violated"
   ],
   "note": "C94_stored_partial, C94_passed_on, C94_found, C94_reader; C94_balance, C94_storage, C94_code (history node C91, state node and endpoints C60 together); C94_transfer, C94_lookup (transfers and lookups are runs of this node); C94_kept, C94_snapshot, C94_snapshot_served. Partial because of C94_any_root_violated: the header is not asked for, so any bytes are stored as the root of some state."
  },
  {
   "property": "C95",
   "status": "partial",
   "theorems": [
    "Verif.Props.C95_delivered_partial",
    "Verif.Props.C95_fetched",
    "Verif.Props.C95_relayed",
    "Verif.Props.C95_relayed_fetched",
    "Verif.Props.C95_only_validated",
    "Verif.Props.C95_fetch_validated",
    "Verif.Props.C95_history_room",
    "Verif.Props.C95_state_room",
    "Verif.Props.C95_version_violated"
   ],
   "note": "C95_delivered_partial, C95_fetched; C95_relayed, C95_relayed_fetched (chains of any length); C95_only_validated, C95_fetch_validated (without any hypothesis on the sender); C95_history_room, C95_state_room show when the two real stores take all items. Partial because of C95_version_violated: if the sender goes by an outdated record and finds another version, the receiver accepts but nothing arrives."
  },
  {
   "property": "C96",
   "status": "proved",
   "theorems": [
    "Verif.Props.C96_accepted",
    "Verif.Props.C96_taken",
    "Verif.Props.C96_answered",
    "Verif.Props.C96_archive",
    "Verif.Props.C96_chain"
   ],
   "note": "C96_accepted, C96_taken (a list of contents of any length is kept), C96_answered (store to endpoint), C96_archive (finished bridge to endpoint), C96_chain (generator, bridge, node, endpoint). The way from the bridge to the node is the hypothesis Brought, which is what C95 is about."
  },
  {
   "property": "C97",
   "status": "proved",
   "theorems": [
    "Verif.Props.C97_offered",
    "Verif.Props.C97_goes_on",
    "Verif.Props.C97_bridges",
    "Verif.Props.C97_fed",
    "Verif.Props.C97_history",
    "Verif.Props.C97_answered",
    "Verif.Props.C97_chain"
   ],
   "note": "C97_offered, C97_goes_on, C97_bridges (finished bridges), C97_fed (a node with room keeps it), C97_history (whole state of every block), C97_answered and C97_chain (endpoints). Up to two different nodes with the same hash that are actually there (HeldCollision, NodeCollision). The way from the bridges to the node is a hypothesis, which is what C95 is about; as in C66 the changes have to be those of the block (Changes, Apart)."
  },
  {
   "property": "C98",
   "status": "partial",
   "theorems": [
    "Verif.Props.C98_start_partial",
    "Verif.Props.C98_turn",
    "Verif.Props.C98_turns",
    "Verif.Props.C98_fed",
    "Verif.Props.C98_finality",
    "Verif.Props.C98_kept",
    "Verif.Props.C98_welcome",
    "Verif.Props.C98_fresh",
    "Verif.Props.C98_slot_violated",
    "Verif.Props.C98_poisoned_violated",
    "Verif.Props.C98_lone_signer_violated"
   ],
   "note": "C98_start_partial, C98_turn, C98_turns (the light client), C98_fed, C98_finality, C98_kept, C98_welcome, C98_fresh (the node). The conclusion needs that there is an optimistic update signed in the very slot of the request: C98_slot_violated shows that no start succeeds in a slot without one. C98_poisoned_violated: whoever sends the bootstrap of a header first, with a committee of their own, keeps all light clients that are given it from starting. C98_lone_signer_violated: one of 512 members can have nodes keep a finality update instead of the right ones, and light clients that are given it do not move. Updates are those of the Electra fork, the only one that the client reads."
  },
  {
   "property": "C99",
   "status": "partial",
   "theorems": [
    "Verif.Props.C99_summaries",
    "Verif.Props.C99_header",
    "Verif.Props.C99_agree",
    "Verif.Props.C99_block",
    "Verif.Props.C99_balance",
    "Verif.Props.C99_storage",
    "Verif.Props.C99_code",
    "Verif.Props.C99_serves",
    "Verif.Props.C99_forged_violated",
    "Verif.Props.C99_call_partial"
   ],
   "note": "C99_summaries, C99_header, C99_agree, C99_block, C99_balance, C99_storage, C99_code, C99_call_partial (safety), C99_serves (what is sent is given). Each conclusion names what would have to be broken instead: a pair in the very proof that was answered which collides with a pair of the chain. The conclusions need that no summaries are taken before the light client runs: C99_forged_violated shows that until then a peer makes the node take any header of the present time and give it for its number. Contents put in by the operator over JSON-RPC are not validated and are left out. An answer is assumed to be something that the networks of this process gave at some time (C82, C91, C94)."
  },
  {
   "property": "C100",
   "status": "partial",
   "theorems": [
    "Verif.Props.C100_call_partial",
    "Verif.Props.C100_complete_partial",
    "Verif.Props.C100_block_hash_violated",
    "Verif.Props.C100_prague_violated",
    "Verif.Props.C100_type_violated",
    "Verif.Props.C100_no_abort",
    "Verif.Props.C100_unsupported"
   ],
   "note": "C100_call_partial (safety), C100_complete_partial (a result is found; the EVM must ask for codes only of accounts that it has read, as revm does), both for blocks before Prague; C100_no_abort, C100_unsupported. C100_prague_violated: from block 22431084 on the rules of Cancun are used; C100_block_hash_violated: a call that reads a block hash always fails; C100_type_violated: type and authorizations of the request are ignored. revm itself is not modelled: it is any deterministic program."
  },
  {
   "property": "C101",
   "status": "proved",
   "theorems": [
    "Verif.Props.C101_entry",
    "Verif.Props.C101_encode",
    "Verif.Props.C101_round_trip",
    "Verif.Props.C101_new",
    "Verif.Props.C101_common",
    "Verif.Props.C101_symmetric",
    "Verif.Props.C101_versions",
    "Verif.Props.C101_versions_round_trip",
    "Verif.Props.C101_negotiate"
   ],
   "note": "C101_entry, C101_encode, C101_round_trip, C101_new, C101_common, C101_symmetric (entry p); C101_versions, C101_versions_round_trip, C101_negotiate (entry pv). alloy-rlp 0.3.12 is modelled for integers, strings and list headers (Model/Rlp); that the entry of a record is cut out of the record correctly is left to the enr library. Agreement for pv is in C18."
  },
  {
   "property": "C102",
   "status": "partial",
   "theorems": [
    "Verif.Props.C102_receipts",
    "Verif.Props.C102_body",
    "Verif.Props.C102_round_trip",
    "Verif.Props.C102_kind",
    "Verif.Props.C102_exact",
    "Verif.Props.C102_length",
    "Verif.Props.C102_injective",
    "Verif.Props.C102_honest",
    "Verif.Props.C102_valid_receipts",
    "Verif.Props.C102_receipts_sound",
    "Verif.Props.C102_body_sound_partial",
    "Verif.Props.C102_withdrawals_violated"
   ],
   "note": "C102_receipts, C102_body, C102_round_trip, C102_kind, C102_exact, C102_length, C102_injective, C102_honest, C102_valid_receipts, C102_receipts_sound; C102_body_sound_partial: a valid body has the transactions and the uncles of the block, but its withdrawals can be missing (C102_withdrawals_violated: the body without its withdrawals is valid too). RLP lists, integers and the receipts are modelled; the RLP of transaction types, statuses, logs and of whole bodies belongs to the library and is any faithful encoding."
  },
  {
   "property": "C103",
   "status": "proved",
   "theorems": [
    "Verif.Props.C103_layout",
    "Verif.Props.C103_round_trip",
    "Verif.Props.C103_exact",
    "Verif.Props.C103_accepts",
    "Verif.Props.C103_injective",
    "Verif.Props.C103_slot",
    "Verif.Props.C103_hash",
    "Verif.Props.C103_header",
    "Verif.Props.C103_binding",
    "Verif.Props.C103_roots",
    "Verif.Props.C103_capella",
    "Verif.Props.C103_deneb",
    "Verif.Props.C103_era"
   ],
   "note": "C103_layout, C103_round_trip, C103_exact, C103_accepts, C103_injective, C103_slot, C103_hash, C103_header, C103_binding, C103_roots, C103_capella, C103_deneb, C103_era. The derive macros of ssz and tree_hash are modelled by combinators (Model/TreeHash), the hash function is arbitrary. Decoding a signature on its own panics on a wrong length and a public key on its own is padded or cut, but inside blocks both get exactly their bytes. The JSON forms are not modelled."
  },
  {
   "property": "C104",
   "status": "proved",
   "theorems": [
    "Verif.Props.C104_layout",
    "Verif.Props.C104_round_trip",
    "Verif.Props.C104_exact",
    "Verif.Props.C104_accepts",
    "Verif.Props.C104_injective",
    "Verif.Props.C104_slot",
    "Verif.Props.C104_hash",
    "Verif.Props.C104_binding",
    "Verif.Props.C104_summaries_proof",
    "Verif.Props.C104_summaries_accepted",
    "Verif.Props.C104_summaries_only",
    "Verif.Props.C104_bridge",
    "Verif.Props.C104_finality",
    "Verif.Props.C104_committees",
    "Verif.Props.C104_honest",
    "Verif.Props.C104_batch",
    "Verif.Props.C104_era"
   ],
   "note": "C104_layout, C104_round_trip, C104_exact, C104_accepts, C104_injective, C104_slot, C104_hash, C104_binding, C104_summaries_proof, C104_summaries_accepted, C104_summaries_only, C104_bridge, C104_finality, C104_committees, C104_honest, C104_batch, C104_era. C104_finality is C41_finalized_binding for real states, whose finalized checkpoint lies one level below the tree of fields; C104_honest derives the assumptions of C41 about honest updates from the states behind the signed headers, so that what is left to trust is the signatures and the checkpoint. The derive macros of ssz and tree_hash are modelled by the combinators of Model/TreeHash, the hash function is arbitrary. The JSON forms are not modelled."
  },
  {
   "property": "C105",
   "status": "partial",
   "theorems": [
    "Verif.Props.C105_reads",
    "Verif.Props.C105_round_trip",
    "Verif.Props.C105_written",
    "Verif.Props.C105_order",
    "Verif.Props.C105_answers",
    "Verif.Props.C105_abort_partial",
    "Verif.Props.C105_signature_violated",
    "Verif.Props.C105_keys_violated"
   ],
   "note": "C105_reads, C105_round_trip, C105_written, C105_order, C105_answers hold in full. The last sentence is false of the code: C105_signature_violated (a signature of other than 96 bytes panics in copy_from_slice) and C105_keys_violated (public keys of any length are cut or filled up); C105_abort_partial proves that nothing else panics. Reading is modelled after the text has been parsed to a JSON value; numbers that are neither JSON numbers nor numerals, hashes that are not strings and big numbers that are not digits are left to the libraries, about which nothing is assumed."
  },
  {
   "property": "C106",
   "status": "partial",
   "theorems": [
    "Verif.Props.C106_rounding",
    "Verif.Props.C106_rounding_total",
    "Verif.Props.C106_target",
    "Verif.Props.C106_count",
    "Verif.Props.C106_capacity",
    "Verif.Props.C106_open",
    "Verif.Props.C106_radius",
    "Verif.Props.C106_limit",
    "Verif.Props.C106_limit_positive",
    "Verif.Props.C106_limit_follows_partial",
    "Verif.Props.C106_limit_stuck_violated",
    "Verif.Props.C106_store_stuck_violated"
   ],
   "note": "Everything but the last sentence is proved in full: C106_capacity, C106_open and C106_radius are C21, C23 and C22 without their assumption about arithmetic. The last sentence is false of the code for limits of one and two: 17 slow statements bring a new strategy to two, and it stays there whatever follows (C106_limit_stuck_violated, C106_store_stuck_violated); C106_limit_follows_partial proves it for limits from three up to 2^46. C106_target is for capacities up to 2^46 bytes (64 TiB), above which doubles are not precise to half a byte. Infinity is not modelled: no value comes near."
  },
  {
   "property": "C107",
   "status": "partial",
   "theorems": [
    "Verif.Props.C107_reads",
    "Verif.Props.C107_round_trip",
    "Verif.Props.C107_fork",
    "Verif.Props.C107_order",
    "Verif.Props.C107_answer",
    "Verif.Props.C107_abort_partial",
    "Verif.Props.C107_signature_violated",
    "Verif.Props.C107_keys_violated"
   ],
   "note": "C107_reads, C107_fork, C107_order, C107_round_trip and C107_answer prove the first sentence in full. The rest is false of the code: a signature of other than 96 bytes makes the reader panic (C107_signature_violated), and a key of any length is taken and cut or filled up to 48 bytes (C107_keys_violated). C107_abort_partial: nothing but such a signature makes it panic. What the libraries (serde_json, serde_this_or_that, alloy, ssz_types) take beyond the usual forms is a parameter. That VariableList of ssz_types refuses too long lists is assumed."
  },
  {
   "property": "C108",
   "status": "partial",
   "theorems": [
    "Verif.Props.C108_reads",
    "Verif.Props.C108_order",
    "Verif.Props.C108_answer",
    "Verif.Props.C108_round_trip_partial",
    "Verif.Props.C108_written_violated",
    "Verif.Props.C108_fork_partial",
    "Verif.Props.C108_fork_violated",
    "Verif.Props.C108_abort_partial",
    "Verif.Props.C108_signature_violated",
    "Verif.Props.C108_keys_violated"
   ],
   "note": "C108_reads, C108_order and C108_answer prove the first sentence in full. The others are false of the code: documents of Deneb states are read as Capella states by the reader that does not know the fork (C108_fork_violated; C108_fork_partial: it is right for the other forks and never gives what the document does not stand for); lists of numbers are read with quotes and written without them (C108_written_violated if the library insists on quotes; C108_round_trip_partial if it does not); a pending deposit with a signature of another length makes the reader panic (C108_signature_violated; C108_abort_partial: nothing but such a signature does); keys of any length are taken (C108_keys_violated). What the libraries take beyond the usual forms is a parameter. That FixedVector and VariableList of ssz_types refuse wrong lengths is assumed."
  },
  {
   "property": "C109",
   "status": "partial",
   "theorems": [
    "Verif.Props.C109_answers",
    "Verif.Props.C109_urls",
    "Verif.Props.C109_slots",
    "Verif.Props.C109_requests",
    "Verif.Props.C109_turn_requests",
    "Verif.Props.C109_anchored",
    "Verif.Props.C109_follows",
    "Verif.Props.C109_alive_partial",
    "Verif.Props.C109_written_alive",
    "Verif.Props.C109_dies_violated",
    "Verif.Props.C109_fallback_violated"
   ],
   "note": "C109_answers, C109_urls, C109_slots, C109_requests, C109_turn_requests, C109_anchored and C109_follows prove all but the last two sentences, which are false of the code: an answer with a signature of other than 96 bytes ends the thread (C109_dies_violated; C109_alive_partial: with honest committees nothing else does; C109_written_alive: no document written for an update has one), and the fallback services are asked in no run (C109_fallback_violated). The YAML of the service list is taken as parsed; HTTP itself is not modelled."
  },
  {
   "property": "C110",
   "status": "partial",
   "theorems": [
    "Verif.Props.C110_aborts_partial",
    "Verif.Props.C110_repeat_violated",
    "Verif.Props.C110_answers",
    "Verif.Props.C110_where_partial",
    "Verif.Props.C110_default_violated",
    "Verif.Props.C110_reported_partial",
    "Verif.Props.C110_reported_violated",
    "Verif.Props.C110_starts",
    "Verif.Props.C110_conflict",
    "Verif.Props.C110_origins_partial",
    "Verif.Props.C110_trim",
    "Verif.Props.C110_spaces_violated",
    "Verif.Props.C110_shared_origins_violated",
    "Verif.Props.C110_node"
   ],
   "note": "C110_starts, C110_answers and C110_conflict prove the first two sentences on modules in full; C110_node shows that the servers of a node (C75) are an instance. The rest is false of the code in corners: without any address WebSocket gets the port of HTTP, and a default is not compared with an address that is given (C110_default_violated; C110_where_partial for the rest); two lists of origins that differ only in white space around them count as the same, and the one of WebSocket is used for both (C110_shared_origins_violated; C110_origins_partial); an origin after a comma and a space is never let in (C110_spaces_violated); an address is reported for a server that was dropped because it has no modules (C110_reported_violated, C110_reported_partial); a module named twice makes the program abort (C110_repeat_violated; C110_aborts_partial: exactly that or a subnetwork that does not run). jsonrpsee and tower-http are modelled by the names they answer and the origins they allow; sockets are a parameter."
  },
  {
   "property": "C111",
   "status": "proved",
   "theorems": [
    "Verif.Props.C111_argument",
    "Verif.Props.C111_same_run",
    "Verif.Props.C111_only",
    "Verif.Props.C111_all",
    "Verif.Props.C111_fault",
    "Verif.Props.C111_none",
    "Verif.Props.C111_usage",
    "Verif.Props.C111_command",
    "Verif.Props.C111_past",
    "Verif.Props.C111_subcommand",
    "Verif.Props.C111_early"
   ],
   "note": "C111_argument: the texts. C111_same_run: a run with traces is the run of C67. C111_only, C111_all, C111_fault, C111_none: the files. C111_usage, C111_command, C111_past, C111_subcommand, C111_early: the command. That a traced transaction has the effects of an untraced one is C68_traced. What a tracer writes, errors of the file system, setup_data_dir (C79), importing and exporting (C81) are parameters; opening the database is taken to succeed."
  },
  {
   "property": "C112",
   "status": "partial",
   "theorems": [
    "Verif.Props.C112_accepts_partial",
    "Verif.Props.C112_refuses",
    "Verif.Props.C112_exported",
    "Verif.Props.C112_no_duplicates",
    "Verif.Props.C112_truncated_violated",
    "Verif.Props.C112_overfull_violated"
   ],
   "note": "C112_accepts_partial: exactly which files are accepted, and the numbers. C112_refuses: how the others are refused. C112_exported: exported snapshots. C112_no_duplicates: no account or slot twice. The claim fails in two ways: a file that ends inside the record of an account is accepted (C112_truncated_violated), and so is a last storage record with more items than the format allows (C112_overfull_violated). An account or slot whose hash is zero is refused (no preimage is known; C112_exported uses that no hash in play is zero). Storage and state roots are not checked by the tool and not part of the claim. Codecs of records are parameters as in C81."
  },
  {
   "property": "C113",
   "status": "partial",
   "theorems": [
    "Verif.Props.C113_slot",
    "Verif.Props.C113_start_partial",
    "Verif.Props.C113_start_violated",
    "Verif.Props.C113_ticks",
    "Verif.Props.C113_update",
    "Verif.Props.C113_update_ends",
    "Verif.Props.C113_rounds",
    "Verif.Props.C113_bridge"
   ],
   "note": "C113_slot: the present slot. C113_start_partial: the start of slots before 2^32; from there on the cast to 32 bits gives the time of a slot long ago (C113_start_violated). C113_ticks: the beacon node. C113_update, C113_update_ends, C113_rounds, C113_bridge: the bridge. The intervals of tokio (Burst, Skip with its tolerance of 5 ms) are modelled after its documentation and source; monotonic and wall clock are taken to be one. The clock of the light client is part of C84."
  },
  {
   "property": "C114",
   "status": "partial",
   "theorems": [
    "Verif.Props.C114_messages",
    "Verif.Props.C114_validations",
    "Verif.Props.C114_summary",
    "Verif.Props.C114_answered",
    "Verif.Props.C114_accepts",
    "Verif.Props.C114_offers_partial",
    "Verif.Props.C114_offers_violated",
    "Verif.Props.C114_head_partial",
    "Verif.Props.C114_delays",
    "Verif.Props.C114_head_violated"
   ],
   "note": "C114_messages, C114_validations, C114_summary: the counters and the line. C114_answered, C114_accepts: no more responses than requests, no more accepts sent than offers received. C114_offers_partial: no more accepts received than offers sent, if peers answer with the right kind; a peer that answers a PING with an ACCEPT breaks it (C114_offers_violated). C114_head_partial, C114_delays: the gauges once a header newer than the one of the start is known; until then they show 0 (C114_head_violated). Counters are natural numbers, slots are below 2^63. The counters of streams are part of C90."
  },
  {
   "property": "C115",
   "status": "proved",
   "theorems": [
    "Verif.Props.C115_line",
    "Verif.Props.C115_quiet",
    "Verif.Props.C115_none",
    "Verif.Props.C115_unforgeable",
    "Verif.Props.C115_client"
   ],
   "note": "C115_line: the line, once. C115_quiet: not earlier. C115_none: \"none\". C115_client: the client of a name. C115_unforgeable: the line determines who declined and why, for every quoted form of strings that shows where it ends (no quoted string continues another one). Lower case, the quoted form of a string and the order of a hash map are arbitrary functions (the last one a permutation). The line of the level \"debug\" is not modelled. That each offer ends exactly once is part of the claims about the bridges."
  }
 ]
}