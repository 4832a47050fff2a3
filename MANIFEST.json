{
 "claims": [
  {
   "property": "C01",
   "status": "proved",
   "theorems": [
    "Soroban.Props.C01_small_iff_in_range",
    "Soroban.Props.C01_small_round_trip",
    "Soroban.Props.C01_small_type_exclusive",
    "Soroban.Props.C01_small_read_back"
   ],
   "note": ""
  },
  {
   "property": "C02",
   "status": "proved",
   "theorems": [
    "Soroban.Props.C02_symbol_accepts_iff",
    "Soroban.Props.C02_symbol_round_trip",
    "Soroban.Props.C02_symbol_injective",
    "Soroban.Props.C02_symbol_order",
    "Soroban.Props.C02_noncanonical_words_exist"
   ],
   "note": ""
  },
  {
   "property": "C03",
   "status": "proved",
   "theorems": [
    "Soroban.Props.C03_is_good_iff_layout",
    "Soroban.Props.C03_constructors_are_good"
   ],
   "note": ""
  },
  {
   "property": "C04",
   "status": "proved",
   "theorems": [
    "Soroban.Props.C04_round_trip",
    "Soroban.Props.C04_accepted_iff",
    "Soroban.Props.C04_existing_values",
    "Soroban.Props.C04_faithful",
    "Soroban.Props.C04_storage_keys"
   ],
   "note": ""
  },
  {
   "property": "C05",
   "status": "proved",
   "theorems": [
    "Soroban.Props.C05_compare",
    "Soroban.Props.C05_obj_cmp",
    "Soroban.Props.C05_total_order",
    "Soroban.Props.C05_representation",
    "Soroban.Props.C05_ledger_values",
    "Soroban.Props.C05_agree",
    "Soroban.Props.C05_call"
   ],
   "note": ""
  },
  {
   "property": "C06",
   "status": "proved",
   "theorems": [
    "Soroban.Props.C06_host_history",
    "Soroban.Props.C06_put",
    "Soroban.Props.C06_get",
    "Soroban.Props.C06_has",
    "Soroban.Props.C06_del",
    "Soroban.Props.C06_positions",
    "Soroban.Props.C06_history",
    "Soroban.Props.C06_handles_immutable",
    "Soroban.Props.C06_call_reads",
    "Soroban.Props.C06_call_makes"
   ],
   "note": ""
  },
  {
   "property": "C07",
   "status": "proved",
   "theorems": [
    "Soroban.Props.C07_host_build",
    "Soroban.Props.C07_host_unpack",
    "Soroban.Props.C07_dense",
    "Soroban.Props.C07_sparse",
    "Soroban.Props.C07_sparse_unpack",
    "Soroban.Props.C07_dense_unpack"
   ],
   "note": ""
  },
  {
   "property": "C08",
   "status": "proved",
   "theorems": [
    "Soroban.Props.C08_host_index_of",
    "Soroban.Props.C08_calls",
    "Soroban.Props.C08_call_errors",
    "Soroban.Props.C08_call_searches",
    "Soroban.Props.C08_call_wrong_object",
    "Soroban.Props.C08_get",
    "Soroban.Props.C08_put",
    "Soroban.Props.C08_del",
    "Soroban.Props.C08_insert",
    "Soroban.Props.C08_ends",
    "Soroban.Props.C08_append",
    "Soroban.Props.C08_slice",
    "Soroban.Props.C08_index_of",
    "Soroban.Props.C08_lengths_fit"
   ],
   "note": ""
  },
  {
   "property": "C09",
   "status": "proved",
   "theorems": [
    "Soroban.Props.C09_host_binary_search",
    "Soroban.Props.C09_binary_search",
    "Soroban.Props.C09_hits_are_real"
   ],
   "note": ""
  },
  {
   "property": "C10",
   "status": "proved",
   "theorems": [
    "Soroban.Props.C10_confinement_memory",
    "Soroban.Props.C10_values_stay_sound_memory",
    "Soroban.Props.C10_resolve_iff",
    "Soroban.Props.C10_round_trip",
    "Soroban.Props.C10_frame_entry",
    "Soroban.Props.C10_handle_wraps",
    "Soroban.Props.C10_argument",
    "Soroban.Props.C10_call_arguments",
    "Soroban.Props.C10_confinement",
    "Soroban.Props.C10_values_stay_sound"
   ],
   "note": ""
  },
  {
   "property": "C11",
   "status": "proved",
   "theorems": [
    "Soroban.Props.C11_charge_succeeds_iff",
    "Soroban.Props.C11_charge_adds_cost",
    "Soroban.Props.C11_cpu_never_decreases",
    "Soroban.Props.C11_memory_never_decreases",
    "Soroban.Props.C11_exhausted_stays",
    "Soroban.Props.C11_memory_growth"
   ],
   "note": ""
  },
  {
   "property": "C12",
   "status": "proved",
   "theorems": [
    "Soroban.Props.C12_exact",
    "Soroban.Props.C12_never_above",
    "Soroban.Props.C12_monotone",
    "Soroban.Props.C12_saturated",
    "Soroban.Props.C12_saturation_undercharges",
    "Soroban.Props.C12_params",
    "Soroban.Props.C12_params_error"
   ],
   "note": ""
  },
  {
   "property": "C13",
   "status": "proved",
   "theorems": [
    "Soroban.Props.C13_shadow_unobservable",
    "Soroban.Props.C13_shadow_limits",
    "Soroban.Props.C13_observable_shadow_state",
    "Soroban.Props.C13_diagnostics_removable"
   ],
   "note": ""
  },
  {
   "property": "C14",
   "status": "proved",
   "theorems": [
    "Soroban.Props.C14_depth_restored",
    "Soroban.Props.C14_depth_exact"
   ],
   "note": ""
  },
  {
   "property": "C15",
   "status": "proved",
   "theorems": [
    "Soroban.Props.C15_peak_is_maximum",
    "Soroban.Props.C15_peak_never_decreases",
    "Soroban.Props.C15_peak_within_limit",
    "Soroban.Props.C15_refunds_are_covered",
    "Soroban.Props.C15_vm_memory_given_back"
   ],
   "note": ""
  },
  {
   "property": "C16",
   "status": "proved",
   "theorems": [
    "Soroban.Props.C16_fuel_within_budget",
    "Soroban.Props.C16_return_fuel_exact",
    "Soroban.Props.C16_total_fuel_charged"
   ],
   "note": ""
  },
  {
   "property": "C17",
   "status": "proved",
   "theorems": [
    "Soroban.Props.C17_undeclared_key",
    "Soroban.Props.C17_read_only_key",
    "Soroban.Props.C17_only_declared_data_changes"
   ],
   "note": ""
  },
  {
   "property": "C18",
   "status": "proved",
   "theorems": [
    "Soroban.Props.C18_enforcing_is_a_ledger",
    "Soroban.Props.C18_recording_is_a_ledger",
    "Soroban.Props.C18_read",
    "Soroban.Props.C18_last_write"
   ],
   "note": ""
  },
  {
   "property": "C19",
   "status": "proved",
   "theorems": [
    "Soroban.Props.C19_recorded_footprint_replays"
   ],
   "note": ""
  },
  {
   "property": "C20",
   "status": "proved",
   "theorems": [
    "Soroban.Props.C20_extend_exact",
    "Soroban.Props.C20_extend_bounded_exact",
    "Soroban.Props.C20_temporary_not_clamped",
    "Soroban.Props.C20_never_shortens"
   ],
   "note": ""
  },
  {
   "property": "C21",
   "status": "proved",
   "theorems": [
    "Soroban.Props.C21_expired_temporary_is_gone",
    "Soroban.Props.C21_expired_persistent_is_restored",
    "Soroban.Props.C21_live_is_unchanged"
   ],
   "note": ""
  },
  {
   "property": "C22",
   "status": "proved",
   "theorems": [
    "Soroban.Props.C22_failed_call_leaves_no_trace",
    "Soroban.Props.C22_failed_try_call_leaves_no_trace",
    "Soroban.Props.C22_failed_transaction"
   ],
   "note": ""
  },
  {
   "property": "C23",
   "status": "proved",
   "theorems": [
    "Soroban.Props.C23_try_call_result",
    "Soroban.Props.C23_fatal_errors_end_the_transaction",
    "Soroban.Props.C23_fatal_errors_end_the_frame",
    "Soroban.Props.C23_fatal_errors_cannot_be_forged",
    "Soroban.Props.C23_failures_on_purpose_are_caught"
   ],
   "note": ""
  },
  {
   "property": "C24",
   "status": "proved",
   "theorems": [
    "Soroban.Props.C24_no_reentrancy",
    "Soroban.Props.C24_no_reentrancy_now",
    "Soroban.Props.C24_reentrant_call_rejected"
   ],
   "note": ""
  },
  {
   "property": "C25",
   "status": "proved",
   "theorems": [
    "Soroban.Props.C25_reserved_call_rejected",
    "Soroban.Props.C25_reserved_transaction_rejected",
    "Soroban.Props.C25_only_host_calls_reserved"
   ],
   "note": ""
  },
  {
   "property": "C26",
   "status": "proved",
   "theorems": [
    "Soroban.Props.C26_depth_bounded",
    "Soroban.Props.C26_depth_exceeded",
    "Soroban.Props.C26_call_balanced",
    "Soroban.Props.C26_code_balanced",
    "Soroban.Props.C26_transaction_balanced"
   ],
   "note": ""
  },
  {
   "property": "C27",
   "status": "proved",
   "theorems": [
    "Soroban.Props.C27_require_auth",
    "Soroban.Props.C27_uses",
    "Soroban.Props.C27_transaction",
    "Soroban.Props.C27_frames_are_the_call_stack",
    "Soroban.Props.C27_frame_numbers"
   ],
   "note": ""
  },
  {
   "property": "C28",
   "status": "proved",
   "theorems": [
    "Soroban.Props.C28_failed_call_restores_authorizations",
    "Soroban.Props.C28_try_call_restores_authorizations",
    "Soroban.Props.C28_nodes_usable_again",
    "Soroban.Props.C28_record_is_faithful"
   ],
   "note": ""
  },
  {
   "property": "C29",
   "status": "proved",
   "theorems": [
    "Soroban.Props.C29_used_entries_are_authenticated",
    "Soroban.Props.C29_nonce_used_once_in_a_transaction",
    "Soroban.Props.C29_no_replay",
    "Soroban.Props.C29_entry_used_once"
   ],
   "note": ""
  },
  {
   "property": "C30",
   "status": "proved",
   "theorems": [
    "Soroban.Props.C30_ceil_is_least",
    "Soroban.Props.C30_resource_fee_exact",
    "Soroban.Props.C30_resource_fee_nonneg",
    "Soroban.Props.C30_resource_fee_monotone",
    "Soroban.Props.C30_refundable_split",
    "Soroban.Props.C30_saturation_undercharges"
   ],
   "note": ""
  },
  {
   "property": "C31",
   "status": "proved",
   "theorems": [
    "Soroban.Props.C31_rent_nonneg",
    "Soroban.Props.C31_unchanged_entries_are_free",
    "Soroban.Props.C31_rent_monotone",
    "Soroban.Props.C31_rent_monotone_in_entries",
    "Soroban.Props.C31_entry_rent_exact",
    "Soroban.Props.C31_rent_exact",
    "Soroban.Props.C31_split_extension_not_cheaper",
    "Soroban.Props.C31_split_saves_at_most_one",
    "Soroban.Props.C31_split_can_save_one"
   ],
   "note": ""
  },
  {
   "property": "C32",
   "status": "proved",
   "theorems": [
    "Soroban.Props.C32_write_fee_bounds",
    "Soroban.Props.C32_write_fee_monotone",
    "Soroban.Props.C32_write_fee_endpoints",
    "Soroban.Props.C32_write_fee_exact"
   ],
   "note": ""
  },
  {
   "property": "C33",
   "status": "proved",
   "theorems": [
    "Soroban.Props.C33_balances",
    "Soroban.Props.C33_supply",
    "Soroban.Props.C33_transfer_conserves",
    "Soroban.Props.C33_mint_burn"
   ],
   "note": ""
  },
  {
   "property": "C34",
   "status": "proved",
   "theorems": [
    "Soroban.Props.C34_bounds",
    "Soroban.Props.C34_bounds_history",
    "Soroban.Props.C34_never_negative"
   ],
   "note": ""
  },
  {
   "property": "C35",
   "status": "proved",
   "theorems": [
    "Soroban.Props.C35_authorized",
    "Soroban.Props.C35_unauthorized_fails",
    "Soroban.Props.C35_debit_explained",
    "Soroban.Props.C35_negative_rejected",
    "Soroban.Props.C35_admin_changes"
   ],
   "note": ""
  },
  {
   "property": "C36",
   "status": "proved",
   "theorems": [
    "Soroban.Props.C36_frozen",
    "Soroban.Props.C36_frozen_history",
    "Soroban.Props.C36_set_authorized"
   ],
   "note": ""
  },
  {
   "property": "C37",
   "status": "proved",
   "theorems": [
    "Soroban.Props.C37_approve_overwrites",
    "Soroban.Props.C37_spend_exact",
    "Soroban.Props.C37_others_unchanged",
    "Soroban.Props.C37_never_overspent",
    "Soroban.Props.C37_allowance_reads",
    "Soroban.Props.C37_expired_not_spendable"
   ],
   "note": ""
  },
  {
   "property": "C38",
   "status": "partial",
   "theorems": [
    "Soroban.Props.C38_approval_lasts_partial",
    "Soroban.Props.C38_counterexample"
   ],
   "note": "False of the code in general: C38_counterexample proves the negation. The partial theorem covers all histories in which earlier approvals of zero name an expiration ledger that has come."
  },
  {
   "property": "C39",
   "status": "proved",
   "theorems": [
    "Soroban.Props.C39_failed",
    "Soroban.Props.C39_result"
   ],
   "note": ""
  },
  {
   "property": "C40",
   "status": "proved",
   "theorems": [
    "Soroban.Props.C40_changes",
    "Soroban.Props.C40_read_only",
    "Soroban.Props.C40_never_shorter",
    "Soroban.Props.C40_apply"
   ],
   "note": ""
  },
  {
   "property": "C41",
   "status": "proved",
   "theorems": [
    "Soroban.Props.C41_returned",
    "Soroban.Props.C41_events",
    "Soroban.Props.C41_diagnostics",
    "Soroban.Props.C41_succeeds",
    "Soroban.Props.C41_failed",
    "Soroban.Props.C41_shown"
   ],
   "note": ""
  },
  {
   "property": "C42",
   "status": "proved",
   "theorems": [
    "Soroban.Props.C42_events",
    "Soroban.Props.C42_events_history"
   ],
   "note": ""
  },
  {
   "property": "C43",
   "status": "proved",
   "theorems": [
    "Soroban.Props.C43_queries"
   ],
   "note": ""
  },
  {
   "property": "C44",
   "status": "proved",
   "theorems": [
    "Soroban.Props.C44_rent_changes"
   ],
   "note": ""
  },
  {
   "property": "C45",
   "status": "proved",
   "theorems": [
    "Soroban.Props.C45_isolation",
    "Soroban.Props.C45_transaction",
    "Soroban.Props.C45_only_itself_upgrades"
   ],
   "note": ""
  },
  {
   "property": "C46",
   "status": "proved",
   "theorems": [
    "Soroban.Props.C46_nothing_goes_away",
    "Soroban.Props.C46_transaction"
   ],
   "note": ""
  },
  {
   "property": "C47",
   "status": "proved",
   "theorems": [
    "Soroban.Props.C47_create_is_new",
    "Soroban.Props.C47_created_as_asked",
    "Soroban.Props.C47_deployer_authorized",
    "Soroban.Props.C47_constructor"
   ],
   "note": ""
  },
  {
   "property": "C48",
   "status": "proved",
   "theorems": [
    "Soroban.Props.C48_upload",
    "Soroban.Props.C48_upload_twice"
   ],
   "note": ""
  },
  {
   "property": "C49",
   "status": "proved",
   "theorems": [
    "Soroban.Props.C49_call",
    "Soroban.Props.C49_check_auth",
    "Soroban.Props.C49_failed_call",
    "Soroban.Props.C49_failed_try_call",
    "Soroban.Props.C49_ops",
    "Soroban.Props.C49_data",
    "Soroban.Props.C49_upload",
    "Soroban.Props.C49_event",
    "Soroban.Props.C49_upgrade",
    "Soroban.Props.C49_isolation",
    "Soroban.Props.C49_transaction",
    "Soroban.Props.C49_only_reads",
    "Soroban.Props.C49_writes_saved",
    "Soroban.Props.C49_tags_refused",
    "Soroban.Props.C49_map_step"
   ],
   "note": ""
  },
  {
   "property": "C50",
   "status": "proved",
   "theorems": [
    "Soroban.Props.C50_authentication",
    "Soroban.Props.C50_below_threshold",
    "Soroban.Props.C50_refused",
    "Soroban.Props.C50_strangers",
    "Soroban.Props.C50_transaction"
   ],
   "note": ""
  },
  {
   "property": "C51",
   "status": "proved",
   "theorems": [
    "Soroban.Props.C51_none_used",
    "Soroban.Props.C51_payload_binds",
    "Soroban.Props.C51_payload_complete",
    "Soroban.Props.C51_old_payload_any_address",
    "Soroban.Props.C51_payload_constant",
    "Soroban.Props.C51_contexts",
    "Soroban.Props.C51_nothing_hidden",
    "Soroban.Props.C51_call_context",
    "Soroban.Props.C51_create_context",
    "Soroban.Props.C51_create_context_any_deployer"
   ],
   "note": ""
  },
  {
   "property": "C52",
   "status": "proved",
   "theorems": [
    "Soroban.Props.C52_history",
    "Soroban.Props.C52_every_state",
    "Soroban.Props.C52_delegate",
    "Soroban.Props.C52_delegate_succeeds",
    "Soroban.Props.C52_reported",
    "Soroban.Props.C52_signers",
    "Soroban.Props.C52_failed_call",
    "Soroban.Props.C52_only_check_auth",
    "Soroban.Props.C52_sorted"
   ],
   "note": ""
  },
  {
   "property": "C53",
   "status": "proved",
   "theorems": [
    "Soroban.Props.C53_streams",
    "Soroban.Props.C53_isolated",
    "Soroban.Props.C53_isolated_prefix",
    "Soroban.Props.C53_no_reuse",
    "Soroban.Props.C53_reseed",
    "Soroban.Props.C53_reseed_size",
    "Soroban.Props.C53_range",
    "Soroban.Props.C53_shuffle",
    "Soroban.Props.C53_shuffle_any",
    "Soroban.Props.C53_bytes",
    "Soroban.Props.C53_unseeded"
   ],
   "note": ""
  },
  {
   "property": "C54",
   "status": "proved",
   "theorems": [
    "Soroban.Props.C54_objects_immutable",
    "Soroban.Props.C54_call",
    "Soroban.Props.C54_call_numbers",
    "Soroban.Props.C54_memory_frame",
    "Soroban.Props.C54_map_new_from",
    "Soroban.Props.C54_map_unpack_to",
    "Soroban.Props.C54_copy_to",
    "Soroban.Props.C54_new_from",
    "Soroban.Props.C54_copy_from",
    "Soroban.Props.C54_vec_new_from",
    "Soroban.Props.C54_vec_unpack_to",
    "Soroban.Props.C54_vec_round_trip",
    "Soroban.Props.C54_symbol_index"
   ],
   "note": ""
  },
  {
   "property": "C55",
   "status": "proved",
   "theorems": [
    "Soroban.Props.C55_sequences"
   ],
   "note": ""
  },
  {
   "property": "C56",
   "status": "proved",
   "theorems": [
    "Soroban.Props.C56_arith",
    "Soroban.Props.C56_checked",
    "Soroban.Props.C56_words",
    "Soroban.Props.C56_from_pieces",
    "Soroban.Props.C56_pieces",
    "Soroban.Props.C56_from_bytes",
    "Soroban.Props.C56_to_bytes",
    "Soroban.Props.C56_digits_unique",
    "Soroban.Props.C56_arith_call",
    "Soroban.Props.C56_words_kept"
   ],
   "note": ""
  },
  {
   "property": "C57",
   "status": "partial",
   "theorems": [
    "Soroban.Props.C57_replay_partial",
    "Soroban.Props.C57_replay_one_object_partial",
    "Soroban.Props.C57_replay_failures_partial",
    "Soroban.Props.C57_recorded_failures",
    "Soroban.Props.C57_root_only",
    "Soroban.Props.C57_failed_call",
    "Soroban.Props.C57_same_request",
    "Soroban.Props.C57_same_request_source",
    "Soroban.Props.C57_two_objects"
   ],
   "note": "False of the code in general: C57_two_objects proves the negation. The partial theorems cover transactions in which no call fails and each call asks for an address at most once, or one object is used per address; the parts on failed calls and on the outermost call are proved in full."
  },
  {
   "property": "C58",
   "status": "proved",
   "theorems": [
    "Soroban.Props.C58_declared",
    "Soroban.Props.C58_fee_covers",
    "Soroban.Props.C58_largest_transaction",
    "Soroban.Props.C58_only_successful",
    "Soroban.Props.C58_modified"
   ],
   "note": ""
  },
  {
   "property": "C59",
   "status": "proved",
   "theorems": [
    "Soroban.Props.C59_extend_succeeds",
    "Soroban.Props.C59_extend",
    "Soroban.Props.C59_restore_succeeds",
    "Soroban.Props.C59_restore",
    "Soroban.Props.C59_reads_restored",
    "Soroban.Props.C59_remembers_restored",
    "Soroban.Props.C59_restores_what_was_read",
    "Soroban.Props.C59_restoring_is_transparent",
    "Soroban.Props.C59_account_update",
    "Soroban.Props.C59_simulation_source"
   ],
   "note": ""
  },
  {
   "property": "C60",
   "status": "proved",
   "theorems": [
    "Soroban.Props.C60_preflight_completes",
    "Soroban.Props.C60_same_outcome",
    "Soroban.Props.C60_changes",
    "Soroban.Props.C60_all_used",
    "Soroban.Props.C60_resources",
    "Soroban.Props.C60_larger_footprint",
    "Soroban.Props.C60_failed_calls_underestimated"
   ],
   "note": ""
  },
  {
   "property": "C61",
   "status": "proved",
   "theorems": [
    "Soroban.Props.C61_table",
    "Soroban.Props.C61_accepts",
    "Soroban.Props.C61_this_host",
    "Soroban.Props.C61_upload",
    "Soroban.Props.C61_guard",
    "Soroban.Props.C61_keeps_working",
    "Soroban.Props.C61_upload_then_run"
   ],
   "note": ""
  },
  {
   "property": "C62",
   "status": "proved",
   "theorems": [
    "Soroban.Props.C62_same_code",
    "Soroban.Props.C62_hit_charges",
    "Soroban.Props.C62_start_charges",
    "Soroban.Props.C62_simulated_hit",
    "Soroban.Props.C62_add"
   ],
   "note": ""
  },
  {
   "property": "C63",
   "status": "proved",
   "theorems": [
    "Soroban.Props.C63_costs",
    "Soroban.Props.C63_rent_size"
   ],
   "note": ""
  },
  {
   "property": "C64",
   "status": "proved",
   "theorems": [
    "Soroban.Props.C64_paid",
    "Soroban.Props.C64_bounded",
    "Soroban.Props.C64_outcome",
    "Soroban.Props.C64_errors_escape",
    "Soroban.Props.C64_call"
   ],
   "note": ""
  },
  {
   "property": "C65",
   "status": "proved",
   "theorems": [
    "Soroban.Props.C65_injective",
    "Soroban.Props.C65_length",
    "Soroban.Props.C65_subgroup_check",
    "Soroban.Props.C65_on_curve_check",
    "Soroban.Props.C65_field_elements",
    "Soroban.Props.C65_hash"
   ],
   "note": ""
  },
  {
   "property": "C66",
   "status": "proved",
   "theorems": [
    "Soroban.Props.C66_add",
    "Soroban.Props.C66_bn_subgroup",
    "Soroban.Props.C66_mul",
    "Soroban.Props.C66_msm",
    "Soroban.Props.C66_laws"
   ],
   "note": ""
  },
  {
   "property": "C67",
   "status": "proved",
   "theorems": [
    "Soroban.Props.C67_check",
    "Soroban.Props.C67_signature"
   ],
   "note": ""
  },
  {
   "property": "C68",
   "status": "proved",
   "theorems": [
    "Soroban.Props.C68_canonical",
    "Soroban.Props.C68_inverse"
   ],
   "note": ""
  },
  {
   "property": "C69",
   "status": "proved",
   "theorems": [
    "Soroban.Props.C69_poseidon",
    "Soroban.Props.C69_poseidon2",
    "Soroban.Props.C69_permutes",
    "Soroban.Props.C69_permutes2",
    "Soroban.Props.C69_diagonal_ignored"
   ],
   "note": ""
  },
  {
   "property": "C70",
   "status": "proved",
   "theorems": [
    "Soroban.Props.C70_ed25519",
    "Soroban.Props.C70_secp256k1",
    "Soroban.Props.C70_secp256r1",
    "Soroban.Props.C70_not_malleable",
    "Soroban.Props.C70_unique"
   ],
   "note": ""
  },
  {
   "property": "C71",
   "status": "proved",
   "theorems": [
    "Soroban.Props.C71_parse",
    "Soroban.Props.C71_parse_muxed",
    "Soroban.Props.C71_parse_other",
    "Soroban.Props.C71_write",
    "Soroban.Props.C71_one_text",
    "Soroban.Props.C71_round_trip",
    "Soroban.Props.C71_muxed_parts",
    "Soroban.Props.C71_mistake",
    "Soroban.Props.C71_mistake_sharp"
   ],
   "note": ""
  },
  {
   "property": "C72",
   "status": "proved",
   "theorems": [
    "Soroban.Props.C72_init",
    "Soroban.Props.C72_init_succeeds",
    "Soroban.Props.C72_once",
    "Soroban.Props.C72_name_identifies",
    "Soroban.Props.C72_render",
    "Soroban.Props.C72_render_text",
    "Soroban.Props.C72_render_sharp"
   ],
   "note": ""
  },
  {
   "property": "C73",
   "status": "proved",
   "theorems": [
    "Soroban.Props.C73_serialize",
    "Soroban.Props.C73_round_trip",
    "Soroban.Props.C73_injective",
    "Soroban.Props.C73_accepted_iff",
    "Soroban.Props.C73_canonical",
    "Soroban.Props.C73_form",
    "Soroban.Props.C73_unrepresentable"
   ],
   "note": ""
  },
  {
   "property": "C74",
   "status": "proved",
   "theorems": [
    "Soroban.Props.C74_contract_id",
    "Soroban.Props.C74_asset_id",
    "Soroban.Props.C74_create",
    "Soroban.Props.C74_create_wasm",
    "Soroban.Props.C74_create_ref",
    "Soroban.Props.C74_create_asset",
    "Soroban.Props.C74_unique",
    "Soroban.Props.C74_kinds"
   ],
   "note": ""
  },
  {
   "property": "C75",
   "status": "proved",
   "theorems": [
    "Soroban.Props.C75_none_used",
    "Soroban.Props.C75_payload",
    "Soroban.Props.C75_unique",
    "Soroban.Props.C75_not_an_id",
    "Soroban.Props.C75_plain"
   ],
   "note": ""
  },
  {
   "property": "C76",
   "status": "proved",
   "theorems": [
    "Soroban.Props.C76_compare",
    "Soroban.Props.C76_total_order",
    "Soroban.Props.C76_unsupported",
    "Soroban.Props.C76_map"
   ],
   "note": ""
  },
  {
   "property": "C77",
   "status": "proved",
   "theorems": [
    "Soroban.Props.C77_match",
    "Soroban.Props.C77_meaning"
   ],
   "note": ""
  },
  {
   "property": "C78",
   "status": "proved",
   "theorems": [
    "Soroban.Props.C78_tree",
    "Soroban.Props.C78_disabled",
    "Soroban.Props.C78_within",
    "Soroban.Props.C78_limits",
    "Soroban.Props.C78_entry_limits",
    "Soroban.Props.C78_unencoded_not_checked"
   ],
   "note": ""
  },
  {
   "property": "C79",
   "status": "proved",
   "theorems": [
    "Soroban.Props.C79_measure",
    "Soroban.Props.C79_recreated"
   ],
   "note": ""
  },
  {
   "property": "C80",
   "status": "proved",
   "theorems": [
    "Soroban.Props.C80_estimate",
    "Soroban.Props.C80_charged",
    "Soroban.Props.C80_tree",
    "Soroban.Props.C80_parts",
    "Soroban.Props.C80_rent_differs"
   ],
   "note": ""
  },
  {
   "property": "C81",
   "status": "proved",
   "theorems": [
    "Soroban.Props.C81_sourced",
    "Soroban.Props.C81_loadable",
    "Soroban.Props.C81_transaction",
    "Soroban.Props.C81_loads"
   ],
   "note": ""
  },
  {
   "property": "C82",
   "status": "proved",
   "theorems": [
    "Soroban.Props.C82_transaction",
    "Soroban.Props.C82_isolated",
    "Soroban.Props.C82_lookup",
    "Soroban.Props.C82_lookup_fails"
   ],
   "note": ""
  },
  {
   "property": "C83",
   "status": "proved",
   "theorems": [
    "Soroban.Props.C83_contexts",
    "Soroban.Props.C83_injective",
    "Soroban.Props.C83_same_functions",
    "Soroban.Props.C83_refused",
    "Soroban.Props.C83_signed"
   ],
   "note": ""
  },
  {
   "property": "C84",
   "status": "proved",
   "theorems": [
    "Soroban.Props.C84_authorized",
    "Soroban.Props.C84_accepted",
    "Soroban.Props.C84_unique"
   ],
   "note": ""
  },
  {
   "property": "C85",
   "status": "proved",
   "theorems": [
    "Soroban.Props.C85_calls",
    "Soroban.Props.C85_unique",
    "Soroban.Props.C85_results",
    "Soroban.Props.C85_succeeds"
   ],
   "note": ""
  },
  {
   "property": "C86",
   "status": "proved",
   "theorems": [
    "Soroban.Props.C86_events",
    "Soroban.Props.C86_injective"
   ],
   "note": ""
  },
  {
   "property": "C87",
   "status": "proved",
   "theorems": [
    "Soroban.Props.C87_loads",
    "Soroban.Props.C87_fees",
    "Soroban.Props.C87_rent",
    "Soroban.Props.C87_ttl",
    "Soroban.Props.C87_budget",
    "Soroban.Props.C87_charges",
    "Soroban.Props.C87_diagnostics",
    "Soroban.Props.C87_negative_limit"
   ],
   "note": ""
  },
  {
   "property": "C88",
   "status": "proved",
   "theorems": [
    "Soroban.Props.C88_keys",
    "Soroban.Props.C88_instance_keys",
    "Soroban.Props.C88_distinct",
    "Soroban.Props.C88_values",
    "Soroban.Props.C88_balance_found",
    "Soroban.Props.C88_allowance_found"
   ],
   "note": ""
  },
  {
   "property": "C89",
   "status": "proved",
   "theorems": [
    "Soroban.Props.C89_decides",
    "Soroban.Props.C89_exactly",
    "Soroban.Props.C89_contracts_pay"
   ],
   "note": ""
  },
  {
   "property": "C90",
   "status": "proved",
   "theorems": [
    "Soroban.Props.C90_extends",
    "Soroban.Props.C90_exactly",
    "Soroban.Props.C90_alive"
   ],
   "note": ""
  },
  {
   "property": "C91",
   "status": "proved",
   "theorems": [
    "Soroban.Props.C91_value",
    "Soroban.Props.C91_absent",
    "Soroban.Props.C91_key",
    "Soroban.Props.C91_entry",
    "Soroban.Props.C91_invocation",
    "Soroban.Props.C91_containers",
    "Soroban.Props.C91_bounded",
    "Soroban.Props.C91_unpaid_tag",
    "Soroban.Props.C91_unpaid_signature"
   ],
   "note": ""
  },
  {
   "property": "C92",
   "status": "proved",
   "theorems": [
    "Soroban.Props.C92_exactly",
    "Soroban.Props.C92_creation",
    "Soroban.Props.C92_missing",
    "Soroban.Props.C92_records"
   ],
   "note": ""
  },
  {
   "property": "C93",
   "status": "proved",
   "theorems": [
    "Soroban.Props.C93_update",
    "Soroban.Props.C93_history",
    "Soroban.Props.C93_transaction",
    "Soroban.Props.C93_announced"
   ],
   "note": ""
  },
  {
   "property": "C94",
   "status": "proved",
   "theorems": [
    "Soroban.Props.C94_entered",
    "Soroban.Props.C94_refused",
    "Soroban.Props.C94_succeeds",
    "Soroban.Props.C94_try",
    "Soroban.Props.C94_transaction"
   ],
   "note": ""
  },
  {
   "property": "C95",
   "status": "proved",
   "theorems": [
    "Soroban.Props.C95_upload",
    "Soroban.Props.C95_update",
    "Soroban.Props.C95_create"
   ],
   "note": ""
  },
  {
   "property": "C96",
   "status": "proved",
   "theorems": [
    "Soroban.Props.C96_enforcing",
    "Soroban.Props.C96_recording",
    "Soroban.Props.C96_once",
    "Soroban.Props.C96_garbage",
    "Soroban.Props.C96_misplaced"
   ],
   "note": ""
  },
  {
   "property": "C97",
   "status": "proved",
   "theorems": [
    "Soroban.Props.C97_succeeds",
    "Soroban.Props.C97_ledger"
   ],
   "note": ""
  },
  {
   "property": "C98",
   "status": "proved",
   "theorems": [
    "Soroban.Props.C98_alone",
    "Soroban.Props.C98_undisturbed",
    "Soroban.Props.C98_serial",
    "Soroban.Props.C98_invariant"
   ],
   "note": ""
  },
  {
   "property": "C99",
   "status": "proved",
   "theorems": [
    "Soroban.Props.C99_history",
    "Soroban.Props.C99_invariant",
    "Soroban.Props.C99_from_creation",
    "Soroban.Props.C99_always"
   ],
   "note": ""
  },
  {
   "property": "C100",
   "status": "proved",
   "theorems": [
    "Soroban.Props.C100_paid",
    "Soroban.Props.C100_search",
    "Soroban.Props.C100_vector_results",
    "Soroban.Props.C100_map_results",
    "Soroban.Props.C100_bounded"
   ],
   "note": ""
  },
  {
   "property": "C101",
   "status": "proved",
   "theorems": [
    "Soroban.Props.C101_footprint",
    "Soroban.Props.C101_outermost",
    "Soroban.Props.C101_enough",
    "Soroban.Props.C101_authentication",
    "Soroban.Props.C101_changed_reference"
   ],
   "note": ""
  },
  {
   "property": "C102",
   "status": "proved",
   "theorems": [
    "Soroban.Props.C102_authentication",
    "Soroban.Props.C102_entry",
    "Soroban.Props.C102_order",
    "Soroban.Props.C102_one_value"
   ],
   "note": ""
  },
  {
   "property": "C103",
   "status": "proved",
   "theorems": [
    "Soroban.Props.C103_written",
    "Soroban.Props.C103_room",
    "Soroban.Props.C103_read_means",
    "Soroban.Props.C103_read_iff",
    "Soroban.Props.C103_told_apart",
    "Soroban.Props.C103_read_exact",
    "Soroban.Props.C103_round_trip",
    "Soroban.Props.C103_void_is_nothing",
    "Soroban.Props.C103_error_is_failure"
   ],
   "note": ""
  },
  {
   "property": "C104",
   "status": "proved",
   "theorems": [
    "Soroban.Props.C104_text",
    "Soroban.Props.C104_made",
    "Soroban.Props.C104_text_order",
    "Soroban.Props.C104_matches",
    "Soroban.Props.C104_same_form",
    "Soroban.Props.C104_other_form",
    "Soroban.Props.C104_forms_told_apart"
   ],
   "note": ""
  },
  {
   "property": "C105",
   "status": "proved",
   "theorems": [
    "Soroban.Props.C105_word",
    "Soroban.Props.C105_read",
    "Soroban.Props.C105_order",
    "Soroban.Props.C105_recoverable",
    "Soroban.Props.C105_decided_alike",
    "Soroban.Props.C105_engine",
    "Soroban.Props.C105_input"
   ],
   "note": ""
  },
  {
   "property": "C106",
   "status": "proved",
   "theorems": [
    "Soroban.Props.C106_unseen"
   ],
   "note": ""
  },
  {
   "property": "C107",
   "status": "proved",
   "theorems": [
    "Soroban.Props.C107_context",
    "Soroban.Props.C107_extend_to_told"
   ],
   "note": ""
  },
  {
   "property": "C108",
   "status": "proved",
   "theorems": [
    "Soroban.Props.C108_recorded_entries",
    "Soroban.Props.C108_metered_entries",
    "Soroban.Props.C108_given_entries",
    "Soroban.Props.C108_failed_call",
    "Soroban.Props.C108_request"
   ],
   "note": ""
  }
 ]
}