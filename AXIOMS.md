# Axioms per theorem

From `#print axioms`; P = propext, Q = Quot.sound, C = Classical.choice.

| theorem | axioms |
|---|---|
| Keriox.C01_append_only | C Q P |
| Keriox.C01_one_step | C Q P |
| Keriox.C01_accepted_is_logged | C Q P |
| Keriox.C01_event_at_sn_stable | C Q P |
| Keriox.C01_kerl_grows | C Q P |
| Keriox.C02_signed | C Q P |
| Keriox.C02_readable_log_is_signed | C Q P |
| Keriox.C02_json_encodes | Q P |
| Keriox.C02_accepted_is_signed | C Q P |
| Keriox.C02_fails | Q P |
| Keriox.C03_contiguous | C Q P |
| Keriox.C03_same_identifier | C Q P |
| Keriox.C04_chained | C Q P |
| Keriox.C05_prerotation | C Q P |
| Keriox.C05_no_commitment_is_final | C Q P |
| Keriox.C06_verify_next_iff | Q P |
| Keriox.C06_single_key_binds | Q P |
| Keriox.C06_fails_order | Q P |
| Keriox.C06_fails_pairs | Q P |
| Keriox.C06_fails_chosen_keys | Q P |
| Keriox.C07_rejected | C Q P |
| Keriox.C07_fails | Q P |
| Keriox.C08_state_is_fold | C Q P |
| Keriox.C08_unreadable | C Q P |
| Keriox.C08_compute_state_is_fold | C Q P |
| Keriox.C08_fails | Q P |
| Keriox.C09_replay | C Q P |
| Keriox.C09_fails_for_delegated | C Q P |
| Keriox.C10_isolated | C Q P |
| Keriox.C10_queries | C Q P |
| Keriox.C10_other_text | P |
| Keriox.C11_duplicate_rejected | C Q P |
| Keriox.C11_resubmission | C Q P |
| Keriox.C11_conflict | C Q P |
| Keriox.C12_fails_for_all | C Q P |
| Keriox.C13_gap_rejected | C Q P |
| Keriox.C13_out_of_order_error | C Q P |
| Keriox.C13_unknown_identifier | C Q P |
| Keriox.C14_accepted_anchored | C Q P |
| Keriox.C14_logged_anchored | C Q P |
| Keriox.C14_fails | Q P |
| Keriox.C14_fails_forged_anchor | Q P |
| Keriox.C15_no_mixing | C Q P |
| Keriox.C15_delegator_constant | C Q P |
| Keriox.C16_identifier_is_digest_field | C Q P |
| Keriox.C16_fails_for_all | C Q P |
| Keriox.C16_fails | Q P |
| Keriox.C17_basic_key | C Q P |
| Keriox.C17_signed_by_key | C Q P |
| Keriox.C17_self_signing_panics | C Q P |
| Keriox.C18_fails_for_all | Q P |
| Keriox.C18_process_fails_for_all | C Q P |
| Keriox.C18_fails | Q P |
| Keriox.C19_rotation | C Q P |
| Keriox.C19_interaction | C Q P |
| Keriox.C19_witness_iff | C Q P |
| Keriox.C20_verify_exact | C Q P |
| Keriox.C20_not_enough | C Q P |
| Keriox.C21_exact | C Q P |
| Keriox.C21_single_clause | C Q P |
| Keriox.C21_multi_clause | C Q P |
| Keriox.C21_multi_total | Q P |
| Keriox.C21_order_independent | C Q P |
| Keriox.C21_fails_single_clause_out_of_range | Q P |
| Keriox.C21_zero_denominator_is_infinite | Q P |
| Keriox.C22_monotone | C Q P |
| Keriox.C22_fails_out_of_range | Q P |
| Keriox.C22_fails_for_zero_over_zero | P |
| Keriox.C23_panic_exact | C Q P |
| Keriox.C23_fails | C Q P |
| Keriox.C23_no_panic | C Q P |
| Keriox.C24_fails | Q P |
| Keriox.C24_crash | C Q P |
| Keriox.C24_fails_for_all | C Q P |
| Keriox.C25_for_ever | C Q P |
| Keriox.C25_state_at_sn | C Q P |
| Keriox.C25_unknown | C Q P |
| Keriox.C26_last_establishment | C Q P |
| Keriox.C26_fails_for_delegated | C Q P |
| Keriox.C27_last_est | C Q P |
| Keriox.C27_fails_for_all | C Q P |
| Keriox.C27_fails | Q P |
| Keriox.C28_receipts_verified | C Q P |
| Keriox.C28_has_receipt | C Q P |
| Keriox.C28_verified_is_stored | C Q P |
| Keriox.C29_kinds_checked | C Q P |
| Keriox.C29_fails_for_all | C Q P |
| Keriox.C29_fails | Q P |
| Keriox.C30_receipts_no_effect | C Q P |
| Keriox.C30_unknown_escrowed_t | C Q P |
| Keriox.C30_unknown_escrowed_nt | C Q P |
| Keriox.C31_map_semantics | C Q P |
| Keriox.C31_key_stable | C Q P |
| Keriox.C31_key_injective | C Q P |
| Keriox.C32_serial | C Q P |
| Keriox.C32_fails_keys | Q P |
| Keriox.C32_fails_fork | Q P |
| Keriox.C32_fails_lost_update | Q P |
| Keriox.C33_old_or_appended | C Q P |
| Keriox.C33_contiguous | C Q P |
| Keriox.C33_chained | C Q P |
| Keriox.C33_prerotation | C Q P |
| Keriox.C34_base64_roundtrip | Q P |
| Keriox.C34_base64_canonical | Q P |
| Keriox.C35_basic_roundtrip | C Q P |
| Keriox.C35_secp_never_parses | C Q P |
| Keriox.C35_selfAddressing_roundtrip | C Q P |
| Keriox.C35_keyed_blake2_loses_key | Q P |
| Keriox.C35_selfSigning_roundtrip | C Q P |
| Keriox.C35_attached_roundtrip | C Q P |
| Keriox.C35_attached_large_index_never_parses | Q P |
| Keriox.C35_identifier_roundtrip | C Q P |
| Keriox.C36_basic_canonical | Q P |
| Keriox.C36_selfAddressing_canonical | Q P |
| Keriox.C36_selfSigning_canonical | Q P |
| Keriox.C36_identifier_canonical | Q P |
| Keriox.C36_canonical_iff | Q P |
| Keriox.C36_padded_key_not_canonical | P |
| Keriox.C36_identifier_text_injective | C Q P |
| Keriox.C36_empty_derivative_collide | none |
| Keriox.C37_basic_stream | C Q P |
| Keriox.C37_selfAddressing_stream | C Q P |
| Keriox.C37_selfSigning_stream | C Q P |
| Keriox.C37_attached_stream | Q P |
| Keriox.C37_identifier_stream | C Q P |
| Keriox.C37_selfSigning_identifier_not_streamable | Q P |
| Keriox.C37_basic_stream_sound | C Q P |
| Keriox.C37_selfAddressing_stream_sound | Q P |
| Keriox.C38_exact | C Q P |
| Keriox.C38_roundtrip | C Q P |
| Keriox.C38_fails | C Q P |
| Keriox.C39_sn_roundtrip | C Q P |
| Keriox.C40_attachment_roundtrip | C Q P |
| Keriox.C40_lastEst_write_panics | none |
| Keriox.C40_frame_never_roundtrips | Q P |
| Keriox.C41_version_string | C Q P |
| Keriox.C41_exact | C Q P |
| Keriox.C41_short_panics | Q P |
| Keriox.C41_accepted | Q P |
| Keriox.C42_declared_size | C Q P |
| Keriox.C42_builder | C Q P |
| Keriox.C42_receipt | C Q P |
| Keriox.C43_built_digest | Q P |
| Keriox.C43_derivation_data | Q P |
| Keriox.C43_fails | Q P |
| Keriox.C44_exact | Q P |
| Keriox.C44_roundtrip | C Q P |
| Keriox.C44_fails_size | C Q P |
| Keriox.C44_fails_secp | C Q P |
| Keriox.C44_fails_threshold | Q P |
| Keriox.C44_fails_infinite_weight | Q P |
| Keriox.C45_exported | C Q P |
| Keriox.C45_parseable | C Q P |
| Keriox.C45_fails_seals | C Q P |
| Keriox.C45_fails | C Q P |
| Keriox.C46_monotone | C Q P |
| Keriox.C46_step | C Q P |
| Keriox.C46_fails_mixed | Q P |
| Keriox.C47_accepted_authentic | C Q P |
| Keriox.C47_stored_authentic | C Q P |
| Keriox.C47_complete | C Q P |
| Keriox.C48_one_per_route | C Q P |
| Keriox.C48_accepted | C Q P |
| Keriox.C48_refused | C Q P |
| Keriox.C48_others | C Q P |
| Keriox.C49_step | C Q P |
| Keriox.C49_logs_untouched | C Q P |
| Keriox.C49_fails_for_all | C Q P |
| Keriox.C49_fails | C Q P |
| Keriox.C50_fails_for_all | C Q P |
| Keriox.C50_exact | C Q P |
| Keriox.C50_fails | Q P |
| Keriox.C51_progress | C Q P |
| Keriox.C51_own_state | C Q P |
| Keriox.C51_unreadable_inception | C Q P |
| Keriox.C51_incept_succeeds | C Q P |
| Keriox.C51_incept_creates | Q P |
| Keriox.C51_incept_extra_creates | Q P |
| Keriox.C52_fails_frozen | C Q P |
| Keriox.C52_fails_calls | C Q P |
| Keriox.C53_needs_majority | C Q P |
| Keriox.C53_quorums_intersect | C Q P |
| Keriox.C53_any_majority_suffices | C Q P |
| Keriox.C53_threshold_not_above_keys | Q P |
| Keriox.C54_fails | Q P |
| Keriox.C54_signature_needed | C Q P |
| Keriox.C55_rotation | C Q P |
| Keriox.C55_inception | C Q P |
| Keriox.C55_fails | Q P |
| Keriox.C56_fails_for_all | C Q P |
| Keriox.C56_fails | Q P |
| Keriox.C57_step | C Q P |
| Keriox.C57_append_only | C Q P |
| Keriox.C57_fails | Q P |
| Keriox.C58_fails_for_all | C Q P |
| Keriox.C58_fails | Q P |
| Keriox.C59_fails_for_all | C Q P |
| Keriox.C59_fails | Q P |
| Keriox.C60_disjoint | Q P |
| Keriox.C61_signed_message_roundtrip | C Q P |
| Keriox.C62_stream_roundtrip | C Q P |
| Keriox.C63_json | C Q P |
| Keriox.C63_fails_version | P |
| Keriox.C63_fails_digest | P |
| Keriox.C63_fails_attachment | C Q P |
| Keriox.C63_attachments | C Q P |
| Keriox.C63_crashes | C Q P |
| Keriox.C64_fails | C Q P |
| Keriox.C64_event_type | Q P |
| Keriox.C65_fails_for_all | C Q P |
| Keriox.C65_fails | Q P |
| Keriox.C66_sn_and_digest | C Q P |
| Keriox.C66_fails | Q P |
| Keriox.C67_short_read_spins | Q P |
| Keriox.C67_fate | C Q P |
| Keriox.C67_first_byte | Q P |
| Keriox.C67_nothing_gets_in | C Q P |
| Keriox.C67_messages | C Q P |
| Keriox.C67_overstated_gets_in | Q P |
| Keriox.C68_pending_write_repeats | Q P |
| Keriox.C68_answer_lost | Q P |
| Keriox.C69_receipt_made | C Q P |
| Keriox.C69_receipt_travels | C Q P |
| Keriox.C70_receipts_whatever_names_it | C Q P |
| Keriox.C70_fails_for_all | C Q P |
| Keriox.C70_refused | Q P |
| Keriox.C70_dismissal_deletes | C Q P |
| Keriox.C70_fails_after_rotation | C Q P |
| Keriox.C71_copy_is_prefix | C Q P |
| Keriox.C71_copy_is_complete | C Q P |
| Keriox.C71_arrival | C Q P |
| Keriox.C72_witness_receipt_crashes | C Q P |
| Keriox.C72_fails_for_all | C Q P |
| Keriox.C72_silence | C Q P |
| Keriox.C73_fresh | C Q P |
| Keriox.C73_handshake | C Q P |
| Keriox.C74_seed_text | P |
| Keriox.C74_seed_roundtrip | C Q P |
| Keriox.C74_seed_texts_differ | C Q P |
| Keriox.C74_seed_reader_exact | Q P |
| Keriox.C74_seed_canonical | Q P |
| Keriox.C74_seed_length_unchecked | P |
| Keriox.C74_seed_panics_iff | C Q P |
| Keriox.C74_derive_exact | Q P |
| Keriox.C74_derived_keys_match | Q P |
| Keriox.C75_event_reader_exact | C Q P |
| Keriox.C75_receipt_reader_exact | C Q P |
| Keriox.C75_seal_reader | Q P |
| Keriox.C75_missing_or_repeated | C Q P |
| Keriox.C75_other_members_ignored | C Q P |
| Keriox.C75_seal_exact | C Q P |
| Keriox.C75_one_seal | C Q P |
| Keriox.C75_event_and_seals_exact | C Q P |
| Keriox.C75_read_is_written | C Q P |
| Keriox.C76_query_roundtrip | C Q P |
| Keriox.C76_reply_reader_exact | C Q P |
| Keriox.C76_query_reader_exact | C Q P |
| Keriox.C77_written_notice | C Q P |
| Keriox.C77_roundtrip | C Q P |
| Keriox.C77_fails_numbers | C Q P |
| Keriox.C77_fails_undelegated | C Q P |
| Keriox.C77_dropped | C Q P |
| Keriox.C77_signed_notice | C Q P |
| Keriox.C78_fails_route | C Q P |
| Keriox.C78_fails_route_respond | C Q P |
| Keriox.C78_fails_query | Q P |
| Keriox.C78_fails_empty_group | Q P |
| Keriox.C78_fails_reply | Q P |
| Keriox.C78_json | C Q P |
| Keriox.C79_answers_only | C Q P |
| Keriox.C79_answers_log | C Q P |
| Keriox.C79_answers_state | C Q P |
| Keriox.C79_fails_replay | C Q P |
| Keriox.C79_fails_route | C Q P |
| Keriox.C79_fails_no_next_keys | C Q P |
| Keriox.C79_fails_rejected | C Q P |
| Keriox.C79_fails_unknown | C Q P |
| Keriox.C79_outright | C Q P |
| Keriox.C79_accepted | C Q P |
| Keriox.C80_exact | C Q P |
| Keriox.C80_verify_exact | C Q P |
| Keriox.C80_ordinary_weights | Q P |
| Keriox.C80_never_more | C Q P |
| Keriox.C80_verify_never_more | C Q P |
| Keriox.C80_fails_overflow | P |
| Keriox.C80_fails_long_clause | Q P |
| Keriox.C81_always_builds | C Q P |
| Keriox.C81_accepted | C Q P |
| Keriox.C81_log | C Q P |
| Keriox.C81_defaults | Q P |
| Keriox.C81_fails_dropped | Q P |
| Keriox.C81_fails_given_prefix | Q P |
| Keriox.C81_fails_no_prefix | Q P |
| Keriox.C82_accepted | C Q P |
| Keriox.C82_log | C Q P |
| Keriox.C82_anchoring | C Q P |
| Keriox.C82_fails_early | C Q P |
| Keriox.C83_exact | C Q P |
| Keriox.C83_panics_iff | C Q P |
| Keriox.C83_nothing_made_up | C Q P |
| Keriox.C83_fails_dropped | C Q P |
| Keriox.C83_fails | C Q P |
| Keriox.C83_fails_framed | C Q P |
| Keriox.C84_rotated_anyway | Q P |
| Keriox.C84_fails_locked_out | C Q P |
| Keriox.C84_fails_shared | C Q P |
| Keriox.C85_log_untouched | C Q P |
| Keriox.C85_basic_refused | C Q P |
| Keriox.C85_fails_switch | C Q P |
| Keriox.C86_length | C Q P |
| Keriox.C86_exact | C Q P |
| Keriox.C86_sn_bound | C Q P |
| Keriox.C86_no_overflow | C Q P |
| Keriox.C86_fails_beyond | Q P |
| Keriox.C87_fuel_binary | C Q P |
| Keriox.C87_cbor | Q P |
| Keriox.C87_mgpk | Q P |
| Keriox.C87_all_formats | C Q P |
| Keriox.C87_no_bounds | C Q P |
| Keriox.C87_message | C Q P |
| Keriox.C87_stream | C Q P |
| Keriox.C87_stream_query | C Q P |
| Keriox.C87_pieces | C Q P |
| Keriox.C88_like_own | Q P |
| Keriox.C88_fails_fresh_wallet | C Q P |
| Keriox.C89_diary | C Q P |
| Keriox.C89_rotation_alone | C Q P |
| Keriox.C90_exact | C Q P |
| Keriox.C90_unchanged | C Q P |
| Keriox.C90_for_ever | C Q P |
| Keriox.C90_fails_current | C Q P |
| Keriox.C90_no_seal | Q P |
| Keriox.C91_unchanged | C Q P |
| Keriox.C91_exact | C Q P |
| Keriox.C91_predicts | C Q P |
| Keriox.C91_suffices | C Q P |
| Keriox.C91_fails_unsigned | C Q P |
| Keriox.C91_fails_inception | C Q P |
| Keriox.C92_nothing_lost | Q P |
| Keriox.C92_all_passed_on | Q P |
| Keriox.C92_in_order | Q P |
| Keriox.C93_built | C Q P |
| Keriox.C93_always | Q P |
| Keriox.C93_binds | Q P |
| Keriox.C93_accepted | C Q P |
| Keriox.C93_fails_for_all | Q P |
| Keriox.C93_fails | Q P |
| Keriox.C94_copies_are_prefixes | C Q P |
| Keriox.C94_no_conflict | C Q P |
| Keriox.C94_state | C Q P |
| Keriox.C94_complete | C Q P |
| Keriox.C94_progress | C Q P |
| Keriox.C95_fork_needs_attack | C Q P |
| Keriox.C95_not_blocked | C Q P |
| Keriox.C95_network | C Q P |
| Keriox.C95_network_progress | C Q P |
| Keriox.C96_fails_for_all | C Q P |
| Keriox.C96_fails_blind | C Q P |
| Keriox.C97_answer | C Q P |
| Keriox.C97_answer_query | C Q P |
| Keriox.C97_crash | C Q P |
| Keriox.C98_reads_back | C Q P |
| Keriox.C98_complete | C Q P |
| Keriox.C98_state_text | C Q P |
| Keriox.C98_accepted | C Q P |
| Keriox.C98_refused | C Q P |
| Keriox.C99_exact | C Q P |
| Keriox.C99_as_node | C Q P |
| Keriox.C99_fails_unknown | C Q P |
| Keriox.C100_for_seal | C Q P |
| Keriox.C100_fails_digest | Q P |
| Keriox.C100_fails_future | C Q P |
| Keriox.C101_local | C Q P |
| Keriox.C101_only_events | C Q P |
| Keriox.C101_own_submissions | C Q P |
| Keriox.C101_interleaving | C Q P |
| Keriox.C101_tally_not_enforced | C Q P |
| Keriox.C101_delegated_order_matters | Q P |
| Keriox.C102_handed_on | C Q P |
| Keriox.C102_plain | C Q P |
| Keriox.C102_fails_delegated | C Q P |
| Keriox.C103_code_text | none |
| Keriox.C103_only_codes | P |
| Keriox.C103_count | Q P |
| Keriox.C103_faithful_iff | Q P |
| Keriox.C103_no_count | P |
| Keriox.C103_sizes | P |
| Keriox.C103_material | Q P |
| Keriox.C103_prefixes | Q P |
| Keriox.C103_async | P |
| Keriox.C104_preorder | C Q P |
| Keriox.C104_preorder_unsigned | C Q P |
| Keriox.C104_eq_cmp | C Q P |
| Keriox.C104_fails_eq_ord | Q P |
| Keriox.C104_fails_conversion | P |
| Keriox.C104_nothing_lost | P |
| Keriox.C104_sort_unique | C Q P |
| Keriox.C104_sort | C Q P |
| Keriox.C104_log_sorted | C Q P |
| Keriox.C105_snapshot | C Q P |
| Keriox.C105_fails_dirty | C Q P |
| Keriox.C105_fails_delegation | Q P |
| Keriox.C106_rooted | C Q P |
| Keriox.C106_no_cycle | C Q P |
| Keriox.C107_disjoint | C Q P |
| Keriox.C107_no_blocking | Q P |
| Keriox.C107_serializable | C Q P |
| Keriox.C107_plain | Q P |
| Keriox.C107_events | C Q P |
| Keriox.C107_same_identifier | Q P |
| Keriox.C108_histories | C Q P |
| Keriox.C108_append_only | C Q P |
| Keriox.C108_well_formed | C Q P |
| Keriox.C108_provenance | C Q P |
| Keriox.C109_agree | Q P |
| Keriox.C109_same_answers | Q P |
| Keriox.C109_when | Q P |
| Keriox.C109_refused | Q P |
| Keriox.C109_silent | C Q P |
| Keriox.C109_for_ever | C Q P |
| Keriox.C109_histories | C Q P |
| Keriox.C109_provenance | C Q P |
| Keriox.C109_listens | C Q P |
| Keriox.C110_exact | C Q P |
| Keriox.C110_signed_message | C Q P |
| Keriox.C110_fails_before_binary | C Q P |
| Keriox.C110_cbor_starts_binary | Q P |
| Keriox.C110_stream_fails | C Q P |
| Keriox.C110_pair_fails | C Q P |
| Keriox.C110_batch_lost | C Q P |
| Keriox.C111_event | C Q P |
| Keriox.C111_exact | C Q P |
| Keriox.C111_same_bytes | Q P |
| Keriox.C111_others_tell | C Q P |
| Keriox.C111_same_verdict | C Q P |
| Keriox.C111_key_event | C Q P |
| Keriox.C111_signed_event | C Q P |
| Keriox.C111_sizes | P |
| Keriox.C111_receipts | C Q P |
| Keriox.C112_events | C Q P |
| Keriox.C112_receipts | C Q P |
| Keriox.C112_witness_receipts | C Q P |
| Keriox.C112_keys | C Q P |
| Keriox.C112_received | C Q P |
| Keriox.C112_received_stream | C Q P |
| Keriox.C112_anyone | C Q P |
| Keriox.C113_answers | C Q P |
| Keriox.C113_any_order | C Q P |
| Keriox.C113_fails_unreadable | Q P |
| Keriox.C113_fails_events | Q P |
| Keriox.C114_retry | C Q P |
| Keriox.C114_answer | C Q P |
| Keriox.C114_from_the_first | C Q P |
| Keriox.C114_fails_refused | C Q P |
| Keriox.C114_fails_receipt | Q P |
| Keriox.C115_exact | C Q P |
| Keriox.C115_accepted_iff | C Q P |
| Keriox.C116_fails_for_all | C Q P |
| Keriox.C116_fails | Q P |
| Keriox.C117_events | C Q P |
| Keriox.C117_validator_receipts | C Q P |
| Keriox.C117_witness_receipts | C Q P |
| Keriox.C117_replies | C Q P |
| Keriox.C117_identifiers | C Q P |
| Keriox.C117_identifiers_bound | C Q P |
| Keriox.C117_lookup_creates | C Q P |
| Keriox.C118_reader_exact | C Q P |
| Keriox.C118_spelling | C Q P |
| Keriox.C118_event_text | C Q P |
| Keriox.C118_receipt_text | C Q P |
| Keriox.C118_signed | C Q P |
| Keriox.C119_extra_key_writes | C Q P |
| Keriox.C119_rotation_ends | C Q P |
| Keriox.C120_copies_are_prefixes | C Q P |
| Keriox.C120_no_conflict | C Q P |
| Keriox.C120_progress | C Q P |
| Keriox.C120_complete | C Q P |
| Keriox.C120_synced | C Q P |
| Keriox.C121_text_named | Q P |
| Keriox.C121_binary_readers | C Q P |
| Keriox.C121_received | C Q P |
| Keriox.C121_no_log | C Q P |
| Keriox.C121_append_only | C Q P |
| Keriox.C121_well_formed | C Q P |
| Keriox.C121_provenance | C Q P |
| Keriox.C121_rooted | C Q P |
| Keriox.C122_step | C Q P |
| Keriox.C122_machine | C Q P |
| Keriox.C122_node | C Q P |
| Keriox.C122_sane | C Q P |
| Keriox.C122_accepted_enters | C Q P |
| Keriox.C122_left_behind | C Q P |
| Keriox.C123_crash_exact | C Q P |
| Keriox.C123_json | C Q P |
| Keriox.C124_keys | C Q P |
| Keriox.C124_indices | C Q P |
| Keriox.C124_all_or_nothing | C Q P |
| Keriox.C124_signed | C Q P |
| Keriox.C124_no_crash | C Q P |
| Keriox.C125_family | C Q P |
| Keriox.C125_interleaving | C Q P |
| Keriox.C125_answers | C Q P |
| Keriox.C125_strangers | C Q P |
| Keriox.C126_fork_is_evidence | C Q P |
| Keriox.C126_guarded | C Q P |
| Keriox.C126_same_keys | C Q P |
| Keriox.C126_one_key_signed_both | C Q P |
| Keriox.C127_crash_exact | C Q P |
| Keriox.C127_counted_exact | C Q P |
| Keriox.C127_counted_stored | C Q P |
| Keriox.C127_escrowed | C Q P |
| Keriox.C127_refused | C Q P |
| Keriox.C127_witness_crash_exact | C Q P |
| Keriox.C127_witness_accepted_exact | C Q P |
| Keriox.C127_witness_stored | C Q P |
| Keriox.C128_accepted_exact | C Q P |
| Keriox.C128_crash_exact | C Q P |
| Keriox.C128_no_next_keys | C Q P |
| Keriox.C129_crash_exact | C Q P |
| Keriox.C129_answered_exact | C Q P |
| Keriox.C129_unsigned_crash | C Q P |
| Keriox.C129_outright_exact | C Q P |
| Keriox.C130_readable | C Q P |
| Keriox.C130_no_crash | C Q P |
| Keriox.C130_witness_query | C Q P |
| Keriox.C130_indices | C Q P |
| Keriox.C130_program | C Q P |
| Keriox.C130_program_no_crash | C Q P |
