{
 "claims": [
  {
   "property": "C01",
   "status": "proved",
   "theorems": [
    "Keriox.C01_append_only",
    "Keriox.C01_one_step",
    "Keriox.C01_accepted_is_logged",
    "Keriox.C01_event_at_sn_stable",
    "Keriox.C01_kerl_grows"
   ],
   "note": "all histories of EventProcessor calls over the sled store (crashing calls included); through the query API except that a log can become undecodable (C02_fails, C08_fails)"
  },
  {
   "property": "C02",
   "status": "proved",
   "theorems": [
    "Keriox.C02_signed",
    "Keriox.C02_readable_log_is_signed",
    "Keriox.C02_json_encodes",
    "Keriox.C02_accepted_is_signed",
    "Keriox.C02_fails"
   ],
   "note": "C02_signed, C02_readable_log_is_signed; the hoped-for claim without the second alternative is false (C02_fails, C24_fails)"
  },
  {
   "property": "C03",
   "status": "proved",
   "theorems": [
    "Keriox.C03_contiguous",
    "Keriox.C03_same_identifier"
   ],
   "note": "every identifier with a non-empty text; no other hypothesis"
  },
  {
   "property": "C04",
   "status": "proved",
   "theorems": [
    "Keriox.C04_chained"
   ],
   "note": ""
  },
  {
   "property": "C05",
   "status": "proved",
   "theorems": [
    "Keriox.C05_prerotation",
    "Keriox.C05_no_commitment_is_final"
   ],
   "note": "the commitment check compares with the configuration of the last establishment event; what the commitment binds is C06"
  },
  {
   "property": "C06",
   "status": "proved",
   "theorems": [
    "Keriox.C06_verify_next_iff",
    "Keriox.C06_single_key_binds",
    "Keriox.C06_fails_order",
    "Keriox.C06_fails_pairs",
    "Keriox.C06_fails_chosen_keys"
   ],
   "note": "C06_verify_next_iff, C06_single_key_binds; the hoped-for binding of lists is false for every digest function (C06_fails_order, C06_fails_pairs, C06_fails_chosen_keys)"
  },
  {
   "property": "C07",
   "status": "proved",
   "theorems": [
    "Keriox.C07_rejected",
    "Keriox.C07_fails"
   ],
   "note": "C07_rejected; without its exceptions the claim is false (C07_fails, C02_fails)"
  },
  {
   "property": "C08",
   "status": "proved",
   "theorems": [
    "Keriox.C08_state_is_fold",
    "Keriox.C08_unreadable",
    "Keriox.C08_compute_state_is_fold",
    "Keriox.C08_fails"
   ],
   "note": "C08_state_is_fold, C08_compute_state_is_fold for readable events, C08_unreadable for the others (C08_fails: secp256k1 key)"
  },
  {
   "property": "C09",
   "status": "proved",
   "theorems": [
    "Keriox.C09_replay",
    "Keriox.C09_fails_for_delegated"
   ],
   "note": "C09_replay; delegated events: C09_fails_for_delegated (stored events lose the source seal)"
  },
  {
   "property": "C10",
   "status": "proved",
   "theorems": [
    "Keriox.C10_isolated",
    "Keriox.C10_queries",
    "Keriox.C10_other_text"
   ],
   "note": "tables, computed state; identifiers compared by text (injective for parseable identifiers, C10_other_text)"
  },
  {
   "property": "C11",
   "status": "proved",
   "theorems": [
    "Keriox.C11_duplicate_rejected",
    "Keriox.C11_resubmission",
    "Keriox.C11_conflict"
   ],
   "note": ""
  },
  {
   "property": "C12",
   "status": "proved",
   "theorems": [
    "Keriox.C12_fails_for_all"
   ],
   "note": "the hoped-for claim (duplicitous events are recorded) is false of the code in every history"
  },
  {
   "property": "C13",
   "status": "proved",
   "theorems": [
    "Keriox.C13_gap_rejected",
    "Keriox.C13_out_of_order_error",
    "Keriox.C13_unknown_identifier"
   ],
   "note": ""
  },
  {
   "property": "C14",
   "status": "proved",
   "theorems": [
    "Keriox.C14_accepted_anchored",
    "Keriox.C14_logged_anchored",
    "Keriox.C14_fails",
    "Keriox.C14_fails_forged_anchor"
   ],
   "note": "C14_accepted_anchored, C14_logged_anchored; limits: C14_fails, C14_fails_forged_anchor"
  },
  {
   "property": "C15",
   "status": "proved",
   "theorems": [
    "Keriox.C15_no_mixing",
    "Keriox.C15_delegator_constant"
   ],
   "note": ""
  },
  {
   "property": "C16",
   "status": "proved",
   "theorems": [
    "Keriox.C16_identifier_is_digest_field",
    "Keriox.C16_fails_for_all",
    "Keriox.C16_fails"
   ],
   "note": "C16_identifier_is_digest_field, C16_fails_for_all, C16_fails; the hoped-for binding is false of the code"
  },
  {
   "property": "C17",
   "status": "proved",
   "theorems": [
    "Keriox.C17_basic_key",
    "Keriox.C17_signed_by_key",
    "Keriox.C17_self_signing_panics"
   ],
   "note": "also: self-signing identifiers panic (C17_self_signing_panics)"
  },
  {
   "property": "C18",
   "status": "proved",
   "theorems": [
    "Keriox.C18_fails_for_all",
    "Keriox.C18_process_fails_for_all",
    "Keriox.C18_fails"
   ],
   "note": "C18_process_fails_for_all, C18_fails_for_all, C18_fails"
  },
  {
   "property": "C19",
   "status": "proved",
   "theorems": [
    "Keriox.C19_rotation",
    "Keriox.C19_interaction",
    "Keriox.C19_witness_iff"
   ],
   "note": ""
  },
  {
   "property": "C20",
   "status": "proved",
   "theorems": [
    "Keriox.C20_verify_exact",
    "Keriox.C20_not_enough"
   ],
   "note": "exact characterisation of Ok(true) and of NotEnoughSigs; the threshold is spelt out by Threshold.MetBy in Props/KeyCfg.lean"
  },
  {
   "property": "C21",
   "status": "proved",
   "theorems": [
    "Keriox.C21_exact",
    "Keriox.C21_single_clause",
    "Keriox.C21_multi_clause",
    "Keriox.C21_multi_total",
    "Keriox.C21_order_independent",
    "Keriox.C21_fails_single_clause_out_of_range",
    "Keriox.C21_zero_denominator_is_infinite"
   ],
   "note": "C21_exact for all thresholds (specification Threshold.MetBy), C21_fails_single_clause_out_of_range/C21_multi_total for panics; C21_single_clause/C21_multi_clause restate it for weights given as pairs. u64 overflow inside the fraction crate not modelled"
  },
  {
   "property": "C22",
   "status": "proved",
   "theorems": [
    "Keriox.C22_monotone",
    "Keriox.C22_fails_out_of_range",
    "Keriox.C22_fails_for_zero_over_zero"
   ],
   "note": "C22_monotone; the excluded points really fail: C22_fails_for_zero_over_zero, C22_fails_out_of_range"
  },
  {
   "property": "C23",
   "status": "proved",
   "theorems": [
    "Keriox.C23_panic_exact",
    "Keriox.C23_fails",
    "Keriox.C23_no_panic"
   ],
   "note": "C23_panic_exact; the hoped-for absence of panics is false (C23_fails)"
  },
  {
   "property": "C24",
   "status": "proved",
   "theorems": [
    "Keriox.C24_fails",
    "Keriox.C24_crash",
    "Keriox.C24_fails_for_all"
   ],
   "note": "C24_crash (exact), C24_fails_for_all, C24_fails"
  },
  {
   "property": "C25",
   "status": "proved",
   "theorems": [
    "Keriox.C25_for_ever",
    "Keriox.C25_state_at_sn",
    "Keriox.C25_unknown"
   ],
   "note": ""
  },
  {
   "property": "C26",
   "status": "proved",
   "theorems": [
    "Keriox.C26_last_establishment",
    "Keriox.C26_fails_for_delegated"
   ],
   "note": "C26_last_establishment, C26_fails_for_delegated"
  },
  {
   "property": "C27",
   "status": "proved",
   "theorems": [
    "Keriox.C27_last_est",
    "Keriox.C27_fails_for_all",
    "Keriox.C27_fails"
   ],
   "note": "C27_last_est, C27_fails_for_all, C27_fails"
  },
  {
   "property": "C28",
   "status": "proved",
   "theorems": [
    "Keriox.C28_receipts_verified",
    "Keriox.C28_has_receipt",
    "Keriox.C28_verified_is_stored"
   ],
   "note": "invariant over all histories; both directions (verified receipts are stored, stored receipts are verified). The receipt's own digest field is not part of it: see C58"
  },
  {
   "property": "C29",
   "status": "proved",
   "theorems": [
    "Keriox.C29_kinds_checked",
    "Keriox.C29_fails_for_all",
    "Keriox.C29_fails"
   ],
   "note": "C29_kinds_checked, C29_fails_for_all, C29_fails; the hoped-for verification does not happen"
  },
  {
   "property": "C30",
   "status": "proved",
   "theorems": [
    "Keriox.C30_receipts_no_effect",
    "Keriox.C30_unknown_escrowed_t",
    "Keriox.C30_unknown_escrowed_nt"
   ],
   "note": ""
  },
  {
   "property": "C31",
   "status": "proved",
   "theorems": [
    "Keriox.C31_map_semantics",
    "Keriox.C31_key_stable",
    "Keriox.C31_key_injective"
   ],
   "note": "for every sequence of storage calls; key counter overflow at 2^64 not modelled"
  },
  {
   "property": "C32",
   "status": "proved",
   "theorems": [
    "Keriox.C32_serial",
    "Keriox.C32_fails_keys",
    "Keriox.C32_fails_fork",
    "Keriox.C32_fails_lost_update"
   ],
   "note": "C32_serial, C32_fails_keys, C32_fails_fork, C32_fails_lost_update; overlapping calls on distinct identifiers: C60"
  },
  {
   "property": "C33",
   "status": "proved",
   "theorems": [
    "Keriox.C33_old_or_appended",
    "Keriox.C33_contiguous",
    "Keriox.C33_chained",
    "Keriox.C33_prerotation"
   ],
   "note": "crash points = between any two accesses to a sled tree; single sled calls atomic and durable in order"
  },
  {
   "property": "C34",
   "status": "proved",
   "theorems": [
    "Keriox.C34_base64_roundtrip",
    "Keriox.C34_base64_canonical"
   ],
   "note": "all byte strings"
  },
  {
   "property": "C35",
   "status": "proved",
   "theorems": [
    "Keriox.C35_basic_roundtrip",
    "Keriox.C35_secp_never_parses",
    "Keriox.C35_selfAddressing_roundtrip",
    "Keriox.C35_keyed_blake2_loses_key",
    "Keriox.C35_selfSigning_roundtrip",
    "Keriox.C35_attached_roundtrip",
    "Keriox.C35_attached_large_index_never_parses",
    "Keriox.C35_identifier_roundtrip"
   ],
   "note": "round-trip theorems per prefix type, exceptions proved for all inputs"
  },
  {
   "property": "C36",
   "status": "proved",
   "theorems": [
    "Keriox.C36_basic_canonical",
    "Keriox.C36_selfAddressing_canonical",
    "Keriox.C36_selfSigning_canonical",
    "Keriox.C36_identifier_canonical",
    "Keriox.C36_canonical_iff",
    "Keriox.C36_padded_key_not_canonical",
    "Keriox.C36_identifier_text_injective",
    "Keriox.C36_empty_derivative_collide"
   ],
   "note": "C36_canonical_iff, C36_*_canonical, C36_identifier_text_injective; C36_empty_derivative_collide shows the length condition is needed"
  },
  {
   "property": "C37",
   "status": "proved",
   "theorems": [
    "Keriox.C37_basic_stream",
    "Keriox.C37_selfAddressing_stream",
    "Keriox.C37_selfSigning_stream",
    "Keriox.C37_attached_stream",
    "Keriox.C37_identifier_stream",
    "Keriox.C37_selfSigning_identifier_not_streamable",
    "Keriox.C37_basic_stream_sound",
    "Keriox.C37_selfAddressing_stream_sound"
   ],
   "note": "same exceptions as C35; C37_selfSigning_identifier_not_streamable"
  },
  {
   "property": "C38",
   "status": "proved",
   "theorems": [
    "Keriox.C38_exact",
    "Keriox.C38_roundtrip",
    "Keriox.C38_fails"
   ],
   "note": "C38_exact for all u16"
  },
  {
   "property": "C39",
   "status": "proved",
   "theorems": [
    "Keriox.C39_sn_roundtrip"
   ],
   "note": ""
  },
  {
   "property": "C40",
   "status": "proved",
   "theorems": [
    "Keriox.C40_attachment_roundtrip",
    "Keriox.C40_lastEst_write_panics",
    "Keriox.C40_frame_never_roundtrips"
   ],
   "note": "C40_attachment_roundtrip, C40_lastEst_write_panics, C40_frame_never_roundtrips"
  },
  {
   "property": "C41",
   "status": "proved",
   "theorems": [
    "Keriox.C41_version_string",
    "Keriox.C41_exact",
    "Keriox.C41_short_panics",
    "Keriox.C41_accepted"
   ],
   "note": ""
  },
  {
   "property": "C42",
   "status": "proved",
   "theorems": [
    "Keriox.C42_declared_size",
    "Keriox.C42_builder",
    "Keriox.C42_receipt"
   ],
   "note": "JSON; size under 2^24, digest function of the advertised lengths"
  },
  {
   "property": "C43",
   "status": "proved",
   "theorems": [
    "Keriox.C43_built_digest",
    "Keriox.C43_derivation_data",
    "Keriox.C43_fails"
   ],
   "note": "C43_built_digest, C43_derivation_data, C43_fails"
  },
  {
   "property": "C44",
   "status": "proved",
   "theorems": [
    "Keriox.C44_exact",
    "Keriox.C44_roundtrip",
    "Keriox.C44_fails_size",
    "Keriox.C44_fails_secp",
    "Keriox.C44_fails_threshold",
    "Keriox.C44_fails_infinite_weight"
   ],
   "note": "JSON. C44_exact is an equivalence; C44_fails_* show the excluded cases are real"
  },
  {
   "property": "C45",
   "status": "proved",
   "theorems": [
    "Keriox.C45_exported",
    "Keriox.C45_parseable",
    "Keriox.C45_fails_seals",
    "Keriox.C45_fails"
   ],
   "note": "C45_exported (exact), C45_parseable, C45_fails_seals, C45_fails"
  },
  {
   "property": "C46",
   "status": "proved",
   "theorems": [
    "Keriox.C46_monotone",
    "Keriox.C46_step",
    "Keriox.C46_fails_mixed"
   ],
   "note": "C46_monotone over histories, C46_step for one call; C46_fails_mixed shows what the claim does not cover: a basic identifier that signs first with a seal and then with its bare key may go back in time"
  },
  {
   "property": "C47",
   "status": "proved",
   "theorems": [
    "Keriox.C47_accepted_authentic",
    "Keriox.C47_stored_authentic",
    "Keriox.C47_complete"
   ],
   "note": "C47_accepted_authentic, C47_stored_authentic (soundness), C47_complete (every authentic, current and fresh reply is accepted)"
  },
  {
   "property": "C48",
   "status": "proved",
   "theorems": [
    "Keriox.C48_one_per_route",
    "Keriox.C48_accepted",
    "Keriox.C48_refused",
    "Keriox.C48_others"
   ],
   "note": "uniqueness, replacement, refusals and other messages"
  },
  {
   "property": "C49",
   "status": "proved",
   "theorems": [
    "Keriox.C49_step",
    "Keriox.C49_logs_untouched",
    "Keriox.C49_fails_for_all",
    "Keriox.C49_fails"
   ],
   "note": "C49_step (exact effect of one step), C49_logs_untouched, C49_fails_for_all (2^n copies), C49_fails"
  },
  {
   "property": "C50",
   "status": "proved",
   "theorems": [
    "Keriox.C50_fails_for_all",
    "Keriox.C50_exact",
    "Keriox.C50_fails"
   ],
   "note": "C50_exact, C50_fails_for_all, C50_fails"
  },
  {
   "property": "C51",
   "status": "proved",
   "theorems": [
    "Keriox.C51_progress",
    "Keriox.C51_own_state",
    "Keriox.C51_unreadable_inception",
    "Keriox.C51_incept_succeeds",
    "Keriox.C51_incept_creates",
    "Keriox.C51_incept_extra_creates"
   ],
   "note": "C51_progress (positive case), C51_incept_succeeds (its hypothesis is met), C51_unreadable_inception (the other case). Assumes a key manager whose keys work (CryptoBox.Works), 32-byte Blake3-256 digests, and no interact calls in between (C52); fewer than 2^64 calls"
  },
  {
   "property": "C52",
   "status": "proved",
   "theorems": [
    "Keriox.C52_fails_frozen",
    "Keriox.C52_fails_calls"
   ],
   "note": "the theorems carry _fails_ in their names because the property originally hoped for (that interact leaves the identifier usable) is false: C52_fails_frozen (for ever, all calls and messages), C52_fails_calls (call by call)"
  },
  {
   "property": "C53",
   "status": "proved",
   "theorems": [
    "Keriox.C53_needs_majority",
    "Keriox.C53_quorums_intersect",
    "Keriox.C53_any_majority_suffices",
    "Keriox.C53_threshold_not_above_keys"
   ],
   "note": ""
  },
  {
   "property": "C54",
   "status": "proved",
   "theorems": [
    "Keriox.C54_fails",
    "Keriox.C54_signature_needed"
   ],
   "note": "C54_signature_needed, C54_fails (threshold zero); the clause for basic identifiers is C17_signed_by_key"
  },
  {
   "property": "C55",
   "status": "proved",
   "theorems": [
    "Keriox.C55_rotation",
    "Keriox.C55_inception",
    "Keriox.C55_fails"
   ],
   "note": "C55_inception, C55_rotation, C55_fails"
  },
  {
   "property": "C56",
   "status": "proved",
   "theorems": [
    "Keriox.C56_fails_for_all",
    "Keriox.C56_fails"
   ],
   "note": "C56_fails_for_all, C56_fails"
  },
  {
   "property": "C57",
   "status": "proved",
   "theorems": [
    "Keriox.C57_step",
    "Keriox.C57_append_only",
    "Keriox.C57_fails"
   ],
   "note": "C57_step (exact effect of one call), C57_append_only, C57_fails"
  },
  {
   "property": "C58",
   "status": "proved",
   "theorems": [
    "Keriox.C58_fails_for_all",
    "Keriox.C58_fails"
   ],
   "note": "C58_fails_for_all, C58_fails"
  },
  {
   "property": "C59",
   "status": "proved",
   "theorems": [
    "Keriox.C59_fails_for_all",
    "Keriox.C59_fails"
   ],
   "note": "C59_fails_for_all, C59_fails; what does hold at every crash point is C33"
  },
  {
   "property": "C60",
   "status": "proved",
   "theorems": [
    "Keriox.C60_disjoint"
   ],
   "note": ""
  },
  {
   "property": "C61",
   "status": "proved",
   "theorems": [
    "Keriox.C61_signed_message_roundtrip"
   ],
   "note": "JSON; binary readers abstract, assumed to reject texts starting with an opening brace (Binary.RejectsJson)"
  },
  {
   "property": "C62",
   "status": "proved",
   "theorems": [
    "Keriox.C62_stream_roundtrip"
   ],
   "note": "as C61"
  },
  {
   "property": "C63",
   "status": "proved",
   "theorems": [
    "Keriox.C63_json",
    "Keriox.C63_fails_version",
    "Keriox.C63_fails_digest",
    "Keriox.C63_fails_attachment",
    "Keriox.C63_attachments",
    "Keriox.C63_crashes"
   ],
   "note": "C63_crashes is exact about what follows the JSON message (C63_attachments) and gives the JSON malformations as a necessary condition; C63_fails_* show crashing inputs. The CBOR/MessagePack readers are abstract (assumed not to panic)."
  },
  {
   "property": "C64",
   "status": "proved",
   "theorems": [
    "Keriox.C64_fails",
    "Keriox.C64_event_type"
   ],
   "note": "C64_event_type, C64_fails"
  },
  {
   "property": "C65",
   "status": "proved",
   "theorems": [
    "Keriox.C65_fails_for_all",
    "Keriox.C65_fails"
   ],
   "note": "C65_fails_for_all, C65_fails"
  },
  {
   "property": "C66",
   "status": "proved",
   "theorems": [
    "Keriox.C66_sn_and_digest",
    "Keriox.C66_fails"
   ],
   "note": "C66_sn_and_digest, C66_fails; completeness of the acceptance test is C47_complete"
  },
  {
   "property": "C67",
   "status": "proved",
   "theorems": [
    "Keriox.C67_short_read_spins",
    "Keriox.C67_fate",
    "Keriox.C67_first_byte",
    "Keriox.C67_nothing_gets_in",
    "Keriox.C67_messages",
    "Keriox.C67_overstated_gets_in"
   ],
   "note": "C67_fate and C67_messages give the exact fate, C67_nothing_gets_in for every moment of every run, C67_overstated_gets_in the exception; the binary readers are abstract (they reject texts that begin with a brace)"
  },
  {
   "property": "C68",
   "status": "proved",
   "theorems": [
    "Keriox.C68_pending_write_repeats",
    "Keriox.C68_answer_lost"
   ],
   "note": "C68_pending_write_repeats (every state), C68_answer_lost (a complete run)"
  },
  {
   "property": "C69",
   "status": "proved",
   "theorems": [
    "Keriox.C69_receipt_made",
    "Keriox.C69_receipt_travels"
   ],
   "note": "C69_receipt_made on the making side, C69_receipt_travels on the accepting side; hypotheses are readable logs (no text that does not read back) and working key pairs"
  },
  {
   "property": "C70",
   "status": "proved",
   "theorems": [
    "Keriox.C70_receipts_whatever_names_it",
    "Keriox.C70_fails_for_all",
    "Keriox.C70_refused",
    "Keriox.C70_dismissal_deletes",
    "Keriox.C70_fails_after_rotation"
   ],
   "note": "C70_receipts_whatever_names_it is exact (result and effect); C70_fails_for_all, C70_dismissal_deletes, C70_fails_after_rotation are the refutations of the property one hopes for; C70_refused the rest"
  },
  {
   "property": "C71",
   "status": "proved",
   "theorems": [
    "Keriox.C71_copy_is_prefix",
    "Keriox.C71_copy_is_complete",
    "Keriox.C71_arrival"
   ],
   "note": "C71_copy_is_prefix, C71_copy_is_complete and C71_arrival; hypotheses readable, not delegated, signed hold for logs of accepted events (C02); delegated logs also need the log of the delegator and are outside this statement"
  },
  {
   "property": "C72",
   "status": "proved",
   "theorems": [
    "Keriox.C72_witness_receipt_crashes",
    "Keriox.C72_fails_for_all",
    "Keriox.C72_silence"
   ],
   "note": "the hope is refuted for every controller (C72_fails_for_all, C72_witness_receipt_crashes); C72_silence is the part that holds"
  },
  {
   "property": "C73",
   "status": "proved",
   "theorems": [
    "Keriox.C73_fresh",
    "Keriox.C73_handshake"
   ],
   "note": "C73_handshake composes writing, parsing, processing, answering on both sides; seals are excluded because exports with seals do not parse (C45); C73_fresh has hypotheses about the inputs of the two users only"
  },
  {
   "property": "C74",
   "status": "proved",
   "theorems": [
    "Keriox.C74_seed_text",
    "Keriox.C74_seed_roundtrip",
    "Keriox.C74_seed_texts_differ",
    "Keriox.C74_seed_reader_exact",
    "Keriox.C74_seed_canonical",
    "Keriox.C74_seed_length_unchecked",
    "Keriox.C74_seed_panics_iff",
    "Keriox.C74_derive_exact",
    "Keriox.C74_derived_keys_match"
   ],
   "note": "C74_seed_roundtrip, C74_seed_texts_differ, C74_seed_reader_exact, C74_seed_panics_iff, C74_derive_exact, C74_derived_keys_match; the curve arithmetic is a parameter with the stated honesty hypothesis; C74_seed_length_unchecked: no length is checked"
  },
  {
   "property": "C75",
   "status": "proved",
   "theorems": [
    "Keriox.C75_event_reader_exact",
    "Keriox.C75_receipt_reader_exact",
    "Keriox.C75_seal_reader",
    "Keriox.C75_missing_or_repeated",
    "Keriox.C75_other_members_ignored",
    "Keriox.C75_seal_exact",
    "Keriox.C75_one_seal",
    "Keriox.C75_event_and_seals_exact",
    "Keriox.C75_read_is_written"
   ],
   "note": "C75_event_reader_exact, C75_receipt_reader_exact, C75_seal_exact and C75_event_and_seals_exact are equivalences; the last two for texts in which no prefix text crashes the reader (JVal.Safe, C63), C75_read_is_written without that condition"
  },
  {
   "property": "C76",
   "status": "proved",
   "theorems": [
    "Keriox.C76_query_roundtrip",
    "Keriox.C76_reply_reader_exact",
    "Keriox.C76_query_reader_exact"
   ],
   "note": "C76_reply_reader_exact, C76_query_reader_exact (equivalences), C76_query_roundtrip; the reader of RFC 3339 texts (chrono) and the binary formats are parameters"
  },
  {
   "property": "C77",
   "status": "proved",
   "theorems": [
    "Keriox.C77_written_notice",
    "Keriox.C77_roundtrip",
    "Keriox.C77_fails_numbers",
    "Keriox.C77_fails_undelegated",
    "Keriox.C77_dropped",
    "Keriox.C77_signed_notice"
   ],
   "note": "C77_written_notice and C77_roundtrip are equivalences; C77_signed_notice for signed replies; C77_fails_numbers, C77_fails_undelegated and C77_dropped are the negative side. Binary readers are assumed to reject texts that begin with a brace"
  },
  {
   "property": "C78",
   "status": "proved",
   "theorems": [
    "Keriox.C78_fails_route",
    "Keriox.C78_fails_route_respond",
    "Keriox.C78_fails_query",
    "Keriox.C78_fails_empty_group",
    "Keriox.C78_fails_reply",
    "Keriox.C78_json"
   ],
   "note": "C78_json is the positive side; C78_fails_route, C78_fails_route_respond, C78_fails_query, C78_fails_empty_group, C78_fails_reply the crashes"
  },
  {
   "property": "C79",
   "status": "proved",
   "theorems": [
    "Keriox.C79_answers_only",
    "Keriox.C79_answers_log",
    "Keriox.C79_answers_state",
    "Keriox.C79_fails_replay",
    "Keriox.C79_fails_route",
    "Keriox.C79_fails_no_next_keys",
    "Keriox.C79_fails_rejected",
    "Keriox.C79_fails_unknown",
    "Keriox.C79_outright",
    "Keriox.C79_accepted"
   ],
   "note": "C79_answers_only (safety), C79_answers_log, C79_answers_state, C79_accepted (liveness); C79_fails_replay, C79_fails_route, C79_fails_no_next_keys, C79_fails_rejected, C79_fails_unknown are the defects; identifiers whose text is empty excluded"
  },
  {
   "property": "C80",
   "status": "proved",
   "theorems": [
    "Keriox.C80_exact",
    "Keriox.C80_verify_exact",
    "Keriox.C80_ordinary_weights",
    "Keriox.C80_never_more",
    "Keriox.C80_verify_never_more",
    "Keriox.C80_fails_overflow",
    "Keriox.C80_fails_long_clause"
   ],
   "note": "C80_exact, C80_verify_exact under FitWords, C80_ordinary_weights gives a simple sufficient condition; C80_never_more, C80_verify_never_more for any weights; C80_fails_overflow, C80_fails_long_clause are the defects; the arithmetic of num-rational 0.4 is written from its published source, which is not in the sandbox"
  },
  {
   "property": "C81",
   "status": "proved",
   "theorems": [
    "Keriox.C81_always_builds",
    "Keriox.C81_accepted",
    "Keriox.C81_log",
    "Keriox.C81_defaults",
    "Keriox.C81_fails_dropped",
    "Keriox.C81_fails_given_prefix",
    "Keriox.C81_fails_no_prefix"
   ],
   "note": "C81_always_builds, C81_accepted, C81_log; C81_fails_dropped, C81_fails_given_prefix, C81_fails_no_prefix are the defects; events must be readable from the store (Readable, see C07); digests of 32 bytes; the builder is used as the API offers it: JSON, Blake3"
  },
  {
   "property": "C82",
   "status": "proved",
   "theorems": [
    "Keriox.C82_accepted",
    "Keriox.C82_log",
    "Keriox.C82_anchoring",
    "Keriox.C82_fails_early"
   ],
   "note": "C82_accepted, C82_log, C82_anchoring; C82_fails_early is the defect; delegator and delegated identifier have different texts, logs readable"
  },
  {
   "property": "C83",
   "status": "proved",
   "theorems": [
    "Keriox.C83_exact",
    "Keriox.C83_panics_iff",
    "Keriox.C83_nothing_made_up",
    "Keriox.C83_fails_dropped",
    "Keriox.C83_fails",
    "Keriox.C83_fails_framed"
   ],
   "note": "C83_exact and C83_panics_iff against the inductive relations Understood and Counts; C83_nothing_made_up; C83_fails, C83_fails_dropped, C83_fails_framed are the defects"
  },
  {
   "property": "C84",
   "status": "proved",
   "theorems": [
    "Keriox.C84_rotated_anyway",
    "Keriox.C84_fails_locked_out",
    "Keriox.C84_fails_shared"
   ],
   "note": "C84_rotated_anyway (the key manager is rotated whatever the outcome); C84_fails_locked_out and C84_fails_shared are the defects, proved for every later sequence of calls; they assume the three successive keys differ (KeysDiffer), which signatures of one do not verify under another"
  },
  {
   "property": "C85",
   "status": "proved",
   "theorems": [
    "Keriox.C85_log_untouched",
    "Keriox.C85_basic_refused",
    "Keriox.C85_fails_switch"
   ],
   "note": "C85_log_untouched for every call, C85_basic_refused; C85_fails_switch is the defect"
  },
  {
   "property": "C86",
   "status": "proved",
   "theorems": [
    "Keriox.C86_length",
    "Keriox.C86_exact",
    "Keriox.C86_sn_bound",
    "Keriox.C86_no_overflow",
    "Keriox.C86_fails_beyond"
   ],
   "note": "C86_length, C86_exact, C86_sn_bound, C86_no_overflow; C86_fails_beyond shows the bound is needed"
  },
  {
   "property": "C87",
   "status": "proved",
   "theorems": [
    "Keriox.C87_fuel_binary",
    "Keriox.C87_cbor",
    "Keriox.C87_mgpk",
    "Keriox.C87_all_formats",
    "Keriox.C87_no_bounds",
    "Keriox.C87_message",
    "Keriox.C87_stream",
    "Keriox.C87_stream_query",
    "Keriox.C87_pieces"
   ],
   "note": "C87_message, C87_stream, C87_stream_query, C87_pieces, C87_no_bounds; the CBOR and MessagePack readers are external crates and assumed to consume input from the front. Binary.Eats is proved of the modelled CBOR and MessagePack readers (C87_cbor, C87_mgpk, C87_all_formats)."
  },
  {
   "property": "C88",
   "status": "proved",
   "theorems": [
    "Keriox.C88_like_own",
    "Keriox.C88_fails_fresh_wallet"
   ],
   "note": "C88_like_own; the last sentence is false and refuted in general by C88_fails_fresh_wallet. The wallet crate is external: assumed to be a map from names to contents"
  },
  {
   "property": "C89",
   "status": "proved",
   "theorems": [
    "Keriox.C89_diary",
    "Keriox.C89_rotation_alone"
   ],
   "note": "C89_diary, C89_rotation_alone; interact is excluded (C52), as are events of this identifier submitted by others, and inceptions that cannot be read back (C51)"
  },
  {
   "property": "C90",
   "status": "proved",
   "theorems": [
    "Keriox.C90_exact",
    "Keriox.C90_unchanged",
    "Keriox.C90_for_ever",
    "Keriox.C90_fails_current",
    "Keriox.C90_no_seal"
   ],
   "note": "C90_exact, C90_unchanged, C90_for_ever; C90_fails_current and C90_no_seal say what it does not mean"
  },
  {
   "property": "C91",
   "status": "proved",
   "theorems": [
    "Keriox.C91_unchanged",
    "Keriox.C91_exact",
    "Keriox.C91_predicts",
    "Keriox.C91_suffices",
    "Keriox.C91_fails_unsigned",
    "Keriox.C91_fails_inception"
   ],
   "note": "C91_unchanged, C91_exact, C91_predicts, C91_suffices; C91_fails_unsigned and C91_fails_inception say what a positive or negative answer does not mean"
  },
  {
   "property": "C92",
   "status": "proved",
   "theorems": [
    "Keriox.C92_nothing_lost",
    "Keriox.C92_all_passed_on",
    "Keriox.C92_in_order"
   ],
   "note": "C92_nothing_lost, C92_all_passed_on, C92_in_order; what happens when the writer is not ready is C68"
  },
  {
   "property": "C93",
   "status": "proved",
   "theorems": [
    "Keriox.C93_built",
    "Keriox.C93_always",
    "Keriox.C93_binds",
    "Keriox.C93_accepted",
    "Keriox.C93_fails_for_all",
    "Keriox.C93_fails"
   ],
   "note": "C93_built, C93_always, C93_binds, C93_accepted; C93_fails_for_all and C93_fails say that the digest is not the one other parts use"
  },
  {
   "property": "C94",
   "status": "proved",
   "theorems": [
    "Keriox.C94_copies_are_prefixes",
    "Keriox.C94_no_conflict",
    "Keriox.C94_state",
    "Keriox.C94_complete",
    "Keriox.C94_progress"
   ],
   "note": "C94_copies_are_prefixes, C94_no_conflict, C94_state, C94_complete, C94_progress"
  },
  {
   "property": "C95",
   "status": "proved",
   "theorems": [
    "Keriox.C95_fork_needs_attack",
    "Keriox.C95_not_blocked",
    "Keriox.C95_network",
    "Keriox.C95_network_progress"
   ],
   "note": "C95_fork_needs_attack, C95_not_blocked, C95_network, C95_network_progress. The four attacks are defined in the specification part of Props/Forge.lean; C96 and C16/C54 show that three of them are possible in this code"
  },
  {
   "property": "C96",
   "status": "proved",
   "theorems": [
    "Keriox.C96_fails_for_all",
    "Keriox.C96_fails_blind"
   ],
   "note": "the promise fails: C96_fails_for_all, C96_fails_blind (built on C06_fails_*)"
  },
  {
   "property": "C97",
   "status": "proved",
   "theorems": [
    "Keriox.C97_answer",
    "Keriox.C97_answer_query",
    "Keriox.C97_crash"
   ],
   "note": "C97_answer, C97_answer_query, C97_crash; the conditions (Answerable) exclude the crashes of C72 and C78"
  },
  {
   "property": "C98",
   "status": "proved",
   "theorems": [
    "Keriox.C98_reads_back",
    "Keriox.C98_complete",
    "Keriox.C98_state_text",
    "Keriox.C98_accepted",
    "Keriox.C98_refused"
   ],
   "note": "C98_reads_back, C98_complete, C98_state_text, C98_accepted, C98_refused"
  },
  {
   "property": "C99",
   "status": "proved",
   "theorems": [
    "Keriox.C99_exact",
    "Keriox.C99_as_node",
    "Keriox.C99_fails_unknown"
   ],
   "note": "C99_exact, C99_as_node; C99_fails_unknown"
  },
  {
   "property": "C100",
   "status": "proved",
   "theorems": [
    "Keriox.C100_for_seal",
    "Keriox.C100_fails_digest",
    "Keriox.C100_fails_future"
   ],
   "note": "C100_for_seal; C100_fails_digest, C100_fails_future"
  },
  {
   "property": "C101",
   "status": "proved",
   "theorems": [
    "Keriox.C101_local",
    "Keriox.C101_only_events",
    "Keriox.C101_own_submissions",
    "Keriox.C101_interleaving",
    "Keriox.C101_tally_not_enforced",
    "Keriox.C101_delegated_order_matters"
   ],
   "note": "C101_local (two histories), C101_only_events (receipts and the rest have no influence on logs), C101_own_submissions and C101_interleaving (schedules), C101_tally_not_enforced, C101_delegated_order_matters (negation for delegated identifiers)."
  },
  {
   "property": "C102",
   "status": "proved",
   "theorems": [
    "Keriox.C102_handed_on",
    "Keriox.C102_plain",
    "Keriox.C102_fails_delegated"
   ],
   "note": "C102_handed_on is exact; C102_plain and C102_fails_delegated are its two ends."
  },
  {
   "property": "C103",
   "status": "proved",
   "theorems": [
    "Keriox.C103_code_text",
    "Keriox.C103_only_codes",
    "Keriox.C103_count",
    "Keriox.C103_faithful_iff",
    "Keriox.C103_no_count",
    "Keriox.C103_sizes",
    "Keriox.C103_material",
    "Keriox.C103_prefixes",
    "Keriox.C103_async"
   ],
   "note": "C103_count is exact for every u16; the deviations are stated by C103_code_text and C103_faithful_iff."
  },
  {
   "property": "C104",
   "status": "proved",
   "theorems": [
    "Keriox.C104_preorder",
    "Keriox.C104_preorder_unsigned",
    "Keriox.C104_eq_cmp",
    "Keriox.C104_fails_eq_ord",
    "Keriox.C104_fails_conversion",
    "Keriox.C104_nothing_lost",
    "Keriox.C104_sort_unique",
    "Keriox.C104_sort",
    "Keriox.C104_log_sorted"
   ],
   "note": "C104_fails_eq_ord and C104_fails_conversion give the two disagreements."
  },
  {
   "property": "C105",
   "status": "proved",
   "theorems": [
    "Keriox.C105_snapshot",
    "Keriox.C105_fails_dirty",
    "Keriox.C105_fails_delegation"
   ],
   "note": "C105_snapshot is the part that holds; C105_fails_dirty (general) and C105_fails_delegation refute isolation of unverified events."
  },
  {
   "property": "C106",
   "status": "proved",
   "theorems": [
    "Keriox.C106_rooted",
    "Keriox.C106_no_cycle"
   ],
   "note": "Delegators without a text (the default identifier, which no reader accepts) end a chain."
  },
  {
   "property": "C107",
   "status": "proved",
   "theorems": [
    "Keriox.C107_disjoint",
    "Keriox.C107_no_blocking",
    "Keriox.C107_serializable",
    "Keriox.C107_plain",
    "Keriox.C107_events",
    "Keriox.C107_same_identifier"
   ],
   "note": "An access is one operation on a sled tree, which sled makes atomic. Identifiers without a table key yet are left out: C60 shows what races for a new key do."
  },
  {
   "property": "C108",
   "status": "proved",
   "theorems": [
    "Keriox.C108_histories",
    "Keriox.C108_append_only",
    "Keriox.C108_well_formed",
    "Keriox.C108_provenance"
   ],
   "note": "Keri::interact is left out: it writes to the log without processing (C52)."
  },
  {
   "property": "C109",
   "status": "proved",
   "theorems": [
    "Keriox.C109_agree",
    "Keriox.C109_same_answers",
    "Keriox.C109_when",
    "Keriox.C109_refused",
    "Keriox.C109_silent",
    "Keriox.C109_for_ever",
    "Keriox.C109_histories",
    "Keriox.C109_provenance",
    "Keriox.C109_listens"
   ],
   "note": "That signing does not panic is a hypothesis of C109_when only. The overflow of sn + 1 after 2^64 events of one identifier is not modelled. interact is outside C109_for_ever and C109_provenance (see C52); C109_silent covers it."
  },
  {
   "property": "C110",
   "status": "proved",
   "theorems": [
    "Keriox.C110_exact",
    "Keriox.C110_signed_message",
    "Keriox.C110_fails_before_binary",
    "Keriox.C110_cbor_starts_binary",
    "Keriox.C110_stream_fails",
    "Keriox.C110_pair_fails",
    "Keriox.C110_batch_lost"
   ],
   "note": "The CBOR writer and reader are modelled from RFC 8949 and the documented behaviour of the crate (serde_cbor is not in the sandbox): Env.WritesCbor says that the writer is the modelled one, Binary.ReadsCbor that the reader agrees with the modelled one on what that accepts. Texts below 2^64 bytes. Feature query off."
  },
  {
   "property": "C111",
   "status": "proved",
   "theorems": [
    "Keriox.C111_event",
    "Keriox.C111_exact",
    "Keriox.C111_same_bytes",
    "Keriox.C111_others_tell",
    "Keriox.C111_same_verdict",
    "Keriox.C111_key_event",
    "Keriox.C111_signed_event",
    "Keriox.C111_sizes",
    "Keriox.C111_receipts"
   ],
   "note": "The MessagePack writer and reader are modelled from the format specification and the documented behaviour of rmp-serde (structs as arrays, maps by name): Env.WritesMgpk, Binary.ReadsMgpk as in C110. Receipts: C111_receipts. C111_sizes proves what C42 and C93 assume of the two writers."
  },
  {
   "property": "C112",
   "status": "proved",
   "theorems": [
    "Keriox.C112_events",
    "Keriox.C112_receipts",
    "Keriox.C112_witness_receipts",
    "Keriox.C112_keys",
    "Keriox.C112_received",
    "Keriox.C112_received_stream",
    "Keriox.C112_anyone"
   ],
   "note": "The CBOR codec of the stored values is the modelled one of C110 (serde_cbor is not in the sandbox); vectors below 2^64 bytes; times of arrival are texts that the reader of times accepts. Key state notices are not covered here (see C98). C112_received is for JSON messages. The log must hold fewer than 2^64 events."
  },
  {
   "property": "C113",
   "status": "proved",
   "theorems": [
    "Keriox.C113_answers",
    "Keriox.C113_any_order",
    "Keriox.C113_fails_unreadable",
    "Keriox.C113_fails_events"
   ],
   "note": "Good receipts are those whose text reads back (rt); the receipts already in the database must be readable too. C113_fails_unreadable and C113_fails_events show on one history each that the two conditions cannot be dropped."
  },
  {
   "property": "C114",
   "status": "proved",
   "theorems": [
    "Keriox.C114_retry",
    "Keriox.C114_answer",
    "Keriox.C114_from_the_first",
    "Keriox.C114_fails_refused",
    "Keriox.C114_fails_receipt"
   ],
   "note": "A kill keeps all writes up to some access to the database (see C33); C114_from_the_first is for power failures that lose the last writes, in order. The events must have non-empty identifiers. C114_fails_refused: for every refused event that a kill left in the log; C114_fails_receipt on one history."
  },
  {
   "property": "C115",
   "status": "proved",
   "theorems": [
    "Keriox.C115_exact",
    "Keriox.C115_accepted_iff"
   ],
   "note": "Both directions, for identifiers with non-empty text. The conditions are stated on the stored logs and the event (Acceptable in Props/Exact.lean), not on the processor's functions."
  },
  {
   "property": "C116",
   "status": "proved",
   "theorems": [
    "Keriox.C116_fails_for_all",
    "Keriox.C116_fails"
   ],
   "note": "Refuted: C116_fails_for_all for every non-transferable key, every committed rotation; C116_fails on one history."
  },
  {
   "property": "C117",
   "status": "proved",
   "theorems": [
    "Keriox.C117_events",
    "Keriox.C117_validator_receipts",
    "Keriox.C117_witness_receipts",
    "Keriox.C117_replies",
    "Keriox.C117_identifiers",
    "Keriox.C117_identifiers_bound",
    "Keriox.C117_lookup_creates"
   ],
   "note": "Records are counted over all identifiers of a table. Bounds are for each group of tables; the one for replies is reached (C49_fails), the others by examples."
  },
  {
   "property": "C118",
   "status": "proved",
   "theorems": [
    "Keriox.C118_reader_exact",
    "Keriox.C118_spelling",
    "Keriox.C118_event_text",
    "Keriox.C118_receipt_text",
    "Keriox.C118_signed"
   ],
   "note": "The grammar (Spells, Chars, Number in Props/Spelling.lean) is a specification apart from the reader. The reader models the serde_json crate, whose source is not in the repository; numbers carry no value, since no message has one."
  },
  {
   "property": "C119",
   "status": "proved",
   "theorems": [
    "Keriox.C119_extra_key_writes",
    "Keriox.C119_rotation_ends"
   ],
   "note": "Signing is a parameter: whoever has the extra key is a function from bytes to signatures valid for it. That rotations by extra-key holders need the committed key is C05; what the commitment fails to keep out is C96."
  },
  {
   "property": "C120",
   "status": "proved",
   "theorems": [
    "Keriox.C120_copies_are_prefixes",
    "Keriox.C120_no_conflict",
    "Keriox.C120_progress",
    "Keriox.C120_complete",
    "Keriox.C120_synced"
   ],
   "note": "As C94, but over bytes. Not included: make_ntr and the stream processor (they store receipts directly; C108 covers their effect on logs), interact (see C52) and the query feature. Logs with seals are not brought up to date by an export (C45, C102); their events have to be handed over one by one (C120_complete)."
  },
  {
   "property": "C121",
   "status": "proved",
   "theorems": [
    "Keriox.C121_text_named",
    "Keriox.C121_binary_readers",
    "Keriox.C121_received",
    "Keriox.C121_no_log",
    "Keriox.C121_append_only",
    "Keriox.C121_well_formed",
    "Keriox.C121_provenance",
    "Keriox.C121_rooted"
   ],
   "note": "Takes away the side condition (the identifier has a text) of C01, C03-C05, C106 and C108 for nodes. The application must not pass events about identifiers without a text to the processor itself, and public keys must not be empty."
  },
  {
   "property": "C122",
   "status": "proved",
   "theorems": [
    "Keriox.C122_step",
    "Keriox.C122_machine",
    "Keriox.C122_node",
    "Keriox.C122_sane",
    "Keriox.C122_accepted_enters",
    "Keriox.C122_left_behind"
   ],
   "note": "C115 extended from the answers of process to the logs, as a refinement of the whole processor on its tables. The last three ways into a log are the defects of C24, C59 and C112."
  },
  {
   "property": "C123",
   "status": "proved",
   "theorems": [
    "Keriox.C123_crash_exact",
    "Keriox.C123_json"
   ],
   "note": "The counterpart of C115: necessary and sufficient, with an example for each of the four ways. Crashes of the readers of bytes are C63 and C78."
  },
  {
   "property": "C124",
   "status": "proved",
   "theorems": [
    "Keriox.C124_keys",
    "Keriox.C124_indices",
    "Keriox.C124_all_or_nothing",
    "Keriox.C124_signed",
    "Keriox.C124_no_crash"
   ],
   "note": "C02 and C07 without their exceptions, for callers that make the check the processor forgets; C124_keys says where the keys to check against are found, C124_indices that the simple range check is enough."
  },
  {
   "property": "C125",
   "status": "proved",
   "theorems": [
    "Keriox.C125_family",
    "Keriox.C125_interleaving",
    "Keriox.C125_answers",
    "Keriox.C125_strangers"
   ],
   "note": "C101's statement for identifiers that are not delegated, extended to delegation; a delegated identifier alone does not have the property (C101_delegated_order_matters)."
  },
  {
   "property": "C126",
   "status": "proved",
   "theorems": [
    "Keriox.C126_fork_is_evidence",
    "Keriox.C126_guarded",
    "Keriox.C126_same_keys",
    "Keriox.C126_one_key_signed_both"
   ],
   "note": "The library itself records no duplicity (C12); this is what its logs are good for all the same. What signatures prove about the holders of keys is the business of the signature scheme."
  },
  {
   "property": "C127",
   "status": "proved",
   "theorems": [
    "Keriox.C127_crash_exact",
    "Keriox.C127_counted_exact",
    "Keriox.C127_counted_stored",
    "Keriox.C127_escrowed",
    "Keriox.C127_refused",
    "Keriox.C127_witness_crash_exact",
    "Keriox.C127_witness_accepted_exact",
    "Keriox.C127_witness_stored"
   ],
   "note": "Completes C28-C30 as C115 and C123 complete C02-C05: all four outcomes, in terms of the stored logs and the receipt alone."
  },
  {
   "property": "C128",
   "status": "proved",
   "theorems": [
    "Keriox.C128_accepted_exact",
    "Keriox.C128_crash_exact",
    "Keriox.C128_no_next_keys"
   ],
   "note": "Completes C46-C48 as C115 and C123 complete C02-C05. With C127 and C123 every crash of process is characterised; queries always crash it."
  },
  {
   "property": "C129",
   "status": "proved",
   "theorems": [
    "Keriox.C129_crash_exact",
    "Keriox.C129_answered_exact",
    "Keriox.C129_unsigned_crash",
    "Keriox.C129_outright_exact"
   ],
   "note": "Makes C79 exact. The signer may not fail (witness.rs:103 returns its error)."
  },
  {
   "property": "C130",
   "status": "proved",
   "theorems": [
    "Keriox.C130_readable",
    "Keriox.C130_no_crash",
    "Keriox.C130_witness_query",
    "Keriox.C130_indices",
    "Keriox.C130_program",
    "Keriox.C130_program_no_crash"
   ],
   "note": "Extends C124 to every kind of message. Histories with process_escrow are left out: a reply waiting in the escrow is read back, changed by C50, before it is accepted."
  }
 ]
}