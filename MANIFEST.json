{
 "claims": [
  {
   "property": "C01",
   "status": "proved",
   "theorems": [
    "Verif.Props.C01_config_new"
   ],
   "note": ""
  },
  {
   "property": "C02",
   "status": "proved",
   "theorems": [
    "Verif.Props.C02_shares_are_evaluations"
   ],
   "note": ""
  },
  {
   "property": "C03",
   "status": "proved",
   "theorems": [
    "Verif.Props.C03_recombination"
   ],
   "note": ""
  },
  {
   "property": "C04",
   "status": "proved",
   "theorems": [
    "Verif.Props.C04_index_checks"
   ],
   "note": ""
  },
  {
   "property": "C05",
   "status": "proved",
   "theorems": [
    "Verif.Props.C05_honest_evaluation_verifies",
    "Verif.Props.C05_index_rejected"
   ],
   "note": ""
  },
  {
   "property": "C06",
   "status": "proved",
   "theorems": [
    "Verif.Props.C06_special_soundness",
    "Verif.Props.C06_false_statement_needs_bad_challenge",
    "Verif.Props.C06_few_hash_values"
   ],
   "note": ""
  },
  {
   "property": "C07",
   "status": "proved",
   "theorems": [
    "Verif.Props.C07_pseudorandom_verify_iff",
    "Verif.Props.C07_unique_output"
   ],
   "note": ""
  },
  {
   "property": "C08",
   "status": "proved",
   "theorems": [
    "Verif.Props.C08_end_to_end"
   ],
   "note": ""
  },
  {
   "property": "C09",
   "status": "proved",
   "theorems": [
    "Verif.Props.C09_any_secret_possible",
    "Verif.Props.C09_unique_dealing",
    "Verif.Props.C09_equally_many_dealings",
    "Verif.Props.C09_number_of_dealings"
   ],
   "note": ""
  },
  {
   "property": "C10",
   "status": "proved",
   "theorems": [
    "Verif.Props.C10_encryption_round_trip",
    "Verif.Props.C10_new_ciphers_open"
   ],
   "note": ""
  },
  {
   "property": "C11",
   "status": "proved",
   "theorems": [
    "Verif.Props.C11_member_index",
    "Verif.Props.C11_distinct_keys"
   ],
   "note": ""
  },
  {
   "property": "C12",
   "status": "proved",
   "theorems": [
    "Verif.Props.C12_share_key_matches",
    "Verif.Props.C12_index_rejected",
    "Verif.Props.C12_verify_iff"
   ],
   "note": ""
  },
  {
   "property": "C13",
   "status": "proved",
   "theorems": [
    "Verif.Props.C13_instance_round_trip",
    "Verif.Props.C13_wrong_length_panics",
    "Verif.Props.C13_instance_injective"
   ],
   "note": ""
  },
  {
   "property": "C14",
   "status": "proved",
   "theorems": [
    "Verif.Props.C14_limb_encoding",
    "Verif.Props.C14_points_lossless"
   ],
   "note": ""
  },
  {
   "property": "C15",
   "status": "proved",
   "theorems": [
    "Verif.Props.C15_createGpp_agrees",
    "Verif.Props.C15_library_key_accepted"
   ],
   "note": ""
  },
  {
   "property": "C16",
   "status": "proved",
   "theorems": [
    "Verif.Props.C16_checkPublicParams_iff",
    "Verif.Props.C16_library_instance",
    "Verif.Props.C16_pre_checkPublicParams_iff",
    "Verif.Props.C16_client_reads_keys"
   ],
   "note": ""
  },
  {
   "property": "C17",
   "status": "proved",
   "theorems": [
    "Verif.Props.C17_read_iff",
    "Verif.Props.C17_write_read",
    "Verif.Props.C17_points",
    "Verif.Props.C17_key_files",
    "Verif.Props.C17_roundtrip"
   ],
   "note": ""
  },
  {
   "property": "C18",
   "status": "proved",
   "theorems": [
    "Verif.Props.C18_map_total",
    "Verif.Props.C18_map_odd",
    "Verif.Props.C18_hash_total"
   ],
   "note": ""
  },
  {
   "property": "C19",
   "status": "proved",
   "theorems": [
    "Verif.Props.C19_hash_agrees",
    "Verif.Props.C19_map_agrees"
   ],
   "note": ""
  },
  {
   "property": "C20",
   "status": "proved",
   "theorems": [
    "Verif.Props.C20_chains_compute_powers",
    "Verif.Props.C20_inverse_and_root"
   ],
   "note": ""
  },
  {
   "property": "C21",
   "status": "proved",
   "theorems": [
    "Verif.Props.C21_verifyPartialEval_iff",
    "Verif.Props.C21_fast_variant",
    "Verif.Props.C21_honest_accepted"
   ],
   "note": ""
  },
  {
   "property": "C22",
   "status": "proved",
   "theorems": [
    "Verif.Props.C22_pseudorandom_iff",
    "Verif.Props.C22_fast_variant",
    "Verif.Props.C22_unique"
   ],
   "note": ""
  },
  {
   "property": "C23",
   "status": "proved",
   "theorems": [
    "Verif.Props.C23_message_framing",
    "Verif.Props.C23_transcript"
   ],
   "note": ""
  },
  {
   "property": "C24",
   "status": "proved",
   "theorems": [
    "Verif.Props.C24_assign_point",
    "Verif.Props.C24_add",
    "Verif.Props.C24_add_satisfiable",
    "Verif.Props.C24_double",
    "Verif.Props.C24_add_incomplete",
    "Verif.Props.C24_add_incomplete_opposite",
    "Verif.Props.C24_violation_add_incomplete_same_point",
    "Verif.Props.C24_neg",
    "Verif.Props.C24_select",
    "Verif.Props.C24_assert_equal"
   ],
   "note": "The unchecked addition of a point to itself is unsound (C24_violation_add_incomplete_same_point); the checked operations are exact."
  },
  {
   "property": "C25",
   "status": "proved",
   "theorems": [
    "Verif.Props.C25_mul_bits_sound",
    "Verif.Props.C25_mul_bits_exact",
    "Verif.Props.C25_no_infinity",
    "Verif.Props.C25_mul_bits_complete",
    "Verif.Props.C25_violation_mul_scalar_ambiguous"
   ],
   "note": "mul_bits is sound for every auxiliary point; mul of a scalar cell has two 254-bit decompositions (C25_violation_mul_scalar_ambiguous), not used by the DKG circuit."
  },
  {
   "property": "C26",
   "status": "proved",
   "theorems": [
    "Verif.Props.C26_mul_g1_sound",
    "Verif.Props.C26_mul_g2_sound",
    "Verif.Props.C26_mul_g1_exact",
    "Verif.Props.C26_mul_g2_exact",
    "Verif.Props.C26_mul_zero_unsatisfiable",
    "Verif.Props.C26_mul_g2_zero_unsatisfiable",
    "Verif.Props.C26_few_bad_aux",
    "Verif.Props.C26_table",
    "Verif.Props.C26_table_sum",
    "Verif.Props.C26_table_assignable",
    "Verif.Props.C26_table_assignable_g2",
    "Verif.Props.C26_select",
    "Verif.Props.C26_select_g2",
    "Verif.Props.C26_windows",
    "Verif.Props.C26_incomplete_rows_safe",
    "Verif.Props.C26_deployed_g2_table"
   ],
   "note": ""
  },
  {
   "property": "C27",
   "status": "proved",
   "theorems": [
    "Verif.Props.C27_linear",
    "Verif.Props.C27_mul",
    "Verif.Props.C27_square",
    "Verif.Props.C27_div",
    "Verif.Props.C27_div_satisfiable",
    "Verif.Props.C27_zero_tests",
    "Verif.Props.C27_select"
   ],
   "note": ""
  },
  {
   "property": "C28",
   "status": "proved",
   "theorems": [
    "Verif.Props.C28_circuit_sound",
    "Verif.Props.C28_members_decrypt_shares",
    "Verif.Props.C28_circuit_exact",
    "Verif.Props.C28_unique_polynomial",
    "Verif.Props.C28_violation_unreduced_coordinates"
   ],
   "note": "Soundness holds for the values modulo q of the exposed coordinates; the circuit does not force them to be reduced, shown by C28_violation_unreduced_coordinates."
  },
  {
   "property": "C29",
   "status": "proved",
   "theorems": [
    "Verif.Props.C29_honest_provable_iff",
    "Verif.Props.C29_honest_instance_satisfies",
    "Verif.Props.C29_few_unusable_scalars",
    "Verif.Props.C29_honest_provable"
   ],
   "note": ""
  },
  {
   "property": "C30",
   "status": "proved",
   "theorems": [
    "Verif.Props.C30_phase_step",
    "Verif.Props.C30_never_back",
    "Verif.Props.C30_pre_phase_step",
    "Verif.Props.C30_pre_never_back"
   ],
   "note": ""
  },
  {
   "property": "C31",
   "status": "proved",
   "theorems": [
    "Verif.Props.C31_registration",
    "Verif.Props.C31_register_once",
    "Verif.Props.C31_only_owner_adds",
    "Verif.Props.C31_pre_registration",
    "Verif.Props.C31_pre_register_once",
    "Verif.Props.C31_pre_only_owner_adds"
   ],
   "note": ""
  },
  {
   "property": "C32",
   "status": "proved",
   "theorems": [
    "Verif.Props.C32_parameters",
    "Verif.Props.C32_submission_kept",
    "Verif.Props.C32_pre_parameters",
    "Verif.Props.C32_pre_submission_kept"
   ],
   "note": ""
  },
  {
   "property": "C33",
   "status": "proved",
   "theorems": [
    "Verif.Props.C33_keys_from_submissions",
    "Verif.Props.C33_keys_fixed",
    "Verif.Props.C33_group_polynomial",
    "Verif.Props.C33_pre_keys",
    "Verif.Props.C33_pre_group_polynomial",
    "Verif.Props.C33_keys_are_sums",
    "Verif.Props.C33_pre_keys_are_sums"
   ],
   "note": ""
  },
  {
   "property": "C34",
   "status": "proved",
   "theorems": [
    "Verif.Props.C34_round_step",
    "Verif.Props.C34_rounds",
    "Verif.Props.C34_pre_rounds",
    "Verif.Props.C34_pre_round_step"
   ],
   "note": ""
  },
  {
   "property": "C35",
   "status": "proved",
   "theorems": [
    "Verif.Props.C35_pre_evaluations",
    "Verif.Props.C35_evaluations",
    "Verif.Props.C35_written_once"
   ],
   "note": ""
  },
  {
   "property": "C36",
   "status": "proved",
   "theorems": [
    "Verif.Props.C36_pre_write_once",
    "Verif.Props.C36_pre_value_determined",
    "Verif.Props.C36_random_step",
    "Verif.Props.C36_write_once",
    "Verif.Props.C36_value_determined"
   ],
   "note": ""
  },
  {
   "property": "C37",
   "status": "proved",
   "theorems": [
    "Verif.Props.C37_pre_quorum",
    "Verif.Props.C37_pre_zero_threshold",
    "Verif.Props.C37_round_opened",
    "Verif.Props.C37_violation_round_zero",
    "Verif.Props.C37_violation_no_quorum"
   ],
   "note": "The property text has two halves: for zkdvrf_pre.sol with threshold >= 1 the quorum holds (C37_pre_quorum); for zkdvrf.sol it is violated, shown by concrete reachable histories (C37_violation_*), with C37_round_opened for what does hold."
  },
  {
   "property": "C38",
   "status": "proved",
   "theorems": [
    "Verif.Props.C38_pre_reads",
    "Verif.Props.C38_getRandomAtRound",
    "Verif.Props.C38_getLatestRandom"
   ],
   "note": ""
  },
  {
   "property": "C39",
   "status": "proved",
   "theorems": [
    "Verif.Props.C39_pre_refines",
    "Verif.Props.C39_pre_outsiders",
    "Verif.Props.C39_pre_owner_only",
    "Verif.Props.C39_outsiders",
    "Verif.Props.C39_owner_only"
   ],
   "note": ""
  },
  {
   "property": "C40",
   "status": "proved",
   "theorems": [
    "Verif.Props.C40_pre_no_withdrawal",
    "Verif.Props.C40_pre_balance",
    "Verif.Props.C40_balance",
    "Verif.Props.C40_no_withdrawal"
   ],
   "note": ""
  },
  {
   "property": "C41",
   "status": "proved",
   "theorems": [
    "Verif.Props.C41_violation_unreduced_blocks",
    "Verif.Props.C41_violation_member_can_block",
    "Verif.Props.C41_pre_setup_completes",
    "Verif.Props.C41_pre_node_can_submit",
    "Verif.Props.C41_pre_round_completes",
    "Verif.Props.C41_pre_round_opens",
    "Verif.Props.C41_pre_violation_unreduced_blocks",
    "Verif.Props.C41_pre_violation_member_can_block",
    "Verif.Props.C41_setup_completes",
    "Verif.Props.C41_node_can_submit",
    "Verif.Props.C41_round_completes",
    "Verif.Props.C41_round_opens"
   ],
   "note": "Completion is proved for honest members with usable random draws; a single malicious member can block the setup for ever with unreduced coordinates, shown by C41_violation_unreduced_blocks and C41_violation_member_can_block."
  },
  {
   "property": "C42",
   "status": "proved",
   "theorems": [
    "Verif.Props.C42_players",
    "Verif.Props.C42_enter_before_random",
    "Verif.Props.C42_entries_closed",
    "Verif.Props.C42_settings_fixed",
    "Verif.Props.C42_pickWinner",
    "Verif.Props.C42_paid_once",
    "Verif.Props.C42_closed_final",
    "Verif.Props.C42_pick_possible",
    "Verif.Props.C42_pre_players",
    "Verif.Props.C42_pre_enter_before_random",
    "Verif.Props.C42_pre_entries_closed",
    "Verif.Props.C42_pre_settings_fixed",
    "Verif.Props.C42_pre_pickWinner",
    "Verif.Props.C42_pre_paid_once",
    "Verif.Props.C42_pre_closed_final",
    "Verif.Props.C42_pre_pick_possible"
   ],
   "note": ""
  },
  {
   "property": "C43",
   "status": "proved",
   "theorems": [
    "Verif.Props.C43_bijection",
    "Verif.Props.C43_contract_shuffle"
   ],
   "note": ""
  },
  {
   "property": "C44",
   "status": "proved",
   "theorems": [
    "Verif.Props.C44_length_checked",
    "Verif.Props.C44_written_file",
    "Verif.Props.C44_exact_degree",
    "Verif.Props.C44_available",
    "Verif.Props.C44_violation_large_degree",
    "Verif.Props.C44_violation_header",
    "Verif.Props.C44_container",
    "Verif.Props.C44_container_health",
    "Verif.Props.C44_container_only_reads",
    "Verif.Props.C44_container_recovers",
    "Verif.Props.C44_container_violation",
    "Verif.Props.C44_container_violation_key"
   ],
   "note": "Holds for degrees up to 22; for larger degrees and for a params file whose header degree differs the code violates the property, shown by C44_violation_*. The start script of the container: C44_container, C44_container_health and C44_container_recovers for degrees up to 22; C44_container_violation: an interrupted download blocks the degree until somebody removes the file. C44_container_violation_key: so does a stop while the proving key is written, if the halo2 library panics on a truncated key."
  },
  {
   "property": "C45",
   "status": "proved",
   "theorems": [
    "Verif.Props.C45_names_distinct",
    "Verif.Props.C45_create_then_load_vk",
    "Verif.Props.C45_create_then_load_pk",
    "Verif.Props.C45_history",
    "Verif.Props.C45_crash_detected",
    "Verif.Props.C45_crash_key",
    "Verif.Props.C45_clean",
    "Verif.Props.C45_clean_succeeds",
    "Verif.Props.C45_download",
    "Verif.Props.C45_repair",
    "Verif.Props.C45_clean_violation",
    "Verif.Props.C45_contract_names",
    "Verif.Props.C45_setup_contracts",
    "Verif.Props.C45_contract_serves",
    "Verif.Props.C45_contract_files",
    "Verif.Props.C45_setup_works"
   ],
   "note": ""
  },
  {
   "property": "C46",
   "status": "proved",
   "theorems": [
    "Verif.Props.C46_combine_spec",
    "Verif.Props.C46_skip_spec",
    "Verif.Props.C46_output_verifies",
    "Verif.Props.C46_output_unique",
    "Verif.Props.C46_succeeds",
    "Verif.Props.C46_unordered_rejected",
    "Verif.Props.C46_service",
    "Verif.Props.C46_violation_noncanonical_z",
    "Verif.Props.C46_pre_violation_noncanonical_z"
   ],
   "note": "Holds for canonical proof responses; a non-canonical z accepted on-chain makes the client combine fail, shown by C46_violation_noncanonical_z."
  },
  {
   "property": "C47",
   "status": "proved",
   "theorems": [
    "Verif.Props.C47_mds_inverse",
    "Verif.Props.C47_matrix_is_mds",
    "Verif.Props.C47_permutation_is_poseidon",
    "Verif.Props.C47_permutation_bijective",
    "Verif.Props.C47_circuit_permutation",
    "Verif.Props.C47_state_determines_point"
   ],
   "note": ""
  },
  {
   "property": "C48",
   "status": "proved",
   "theorems": [
    "Verif.Props.C48_image_unique",
    "Verif.Props.C48_map_total_on_curve",
    "Verif.Props.C48_sqrt_exists",
    "Verif.Props.C48_hash_total",
    "Verif.Props.C48_hash_deterministic",
    "Verif.Props.C48_inputs_separated"
   ],
   "note": ""
  },
  {
   "property": "C49",
   "status": "proved",
   "theorems": [
    "Verif.Props.C49_moduli_prime",
    "Verif.Props.C49_curve_orders",
    "Verif.Props.C49_points_are_solutions",
    "Verif.Props.C49_g2_subgroup"
   ],
   "note": ""
  },
  {
   "property": "C50",
   "status": "proved",
   "theorems": [
    "Verif.Props.C50_dl_equal_iff",
    "Verif.Props.C50_aggregate_accepted"
   ],
   "note": ""
  },
  {
   "property": "C51",
   "status": "proved",
   "theorems": [
    "Verif.Props.C51_isOnCurve_iff",
    "Verif.Props.C51_canonical",
    "Verif.Props.C51_accepts_noncanonical"
   ],
   "note": ""
  },
  {
   "property": "C52",
   "status": "proved",
   "theorems": [
    "Verif.Props.C52_derive",
    "Verif.Props.C52_files_match_contract",
    "Verif.Props.C52_share_sound",
    "Verif.Props.C52_combine_with_derived_files"
   ],
   "note": "Proof-system soundness is a hypothesis at circuit level (Spec.SnarkSound): accepted proofs are for instances that satisfy the circuit."
  },
  {
   "property": "C53",
   "status": "proved",
   "theorems": [
    "Verif.Props.C53_compute_vk"
   ],
   "note": "Same hypothesis as C52."
  },
  {
   "property": "C54",
   "status": "proved",
   "theorems": [
    "Verif.Props.C54_register",
    "Verif.Props.C54_keys_file",
    "Verif.Props.C54_prove",
    "Verif.Props.C54_evaluate"
   ],
   "note": "The prover is a parameter that proves every satisfiable instance; random draws must avoid the finitely many values of Spec.Usable (see C29_few_unusable_scalars)."
  },
  {
   "property": "C55",
   "status": "proved",
   "theorems": [
    "Verif.Props.C55_no_failure",
    "Verif.Props.C55_rounds",
    "Verif.Props.C55_stage",
    "Verif.Props.C55_progress",
    "Verif.Props.C55_completes"
   ],
   "note": "Proof system and draws as stated in Spec/Services (Faithful, GoodDraw); a pass is one step (the contract does not change between the reads of a pass and the inclusion of its transaction). The interval between rounds is assumed to elapse only after the open round is complete (otherwise C57)."
  },
  {
   "property": "C56",
   "status": "proved",
   "theorems": [
    "Verif.Props.C56_ninth_and_tenth_disjoint",
    "Verif.Props.C56_violation_tenth_round",
    "Verif.Props.C56_comparison_below_ten",
    "Verif.Props.C56_node_idle_in_round_ten"
   ],
   "note": "Finding: from round 10 on, the comparison is wrong; C56_violation_tenth_round. The JavaScript semantics of > on ethers-5 BigNumbers (decimal strings) is trusted."
  },
  {
   "property": "C57",
   "status": "proved",
   "theorems": [
    "Verif.Props.C57_violation_deposit",
    "Verif.Props.C57_violation_missing_files",
    "Verif.Props.C57_violation_front_run",
    "Verif.Props.C57_violation_unreduced_response",
    "Verif.Props.C57_violation_unreduced_accepted",
    "Verif.Props.C57_violation_interval"
   ],
   "note": "The failures are proved as theorems with the word violation in their names: they hold of the code as it is."
  },
  {
   "property": "C58",
   "status": "proved",
   "theorems": [
    "Verif.Props.C58_startup_iff",
    "Verif.Props.C58_startup_effect",
    "Verif.Props.C58_fresh",
    "Verif.Props.C58_violation_more_members"
   ],
   "note": "The limitation with more members than configured nodes is C58_violation_more_members."
  },
  {
   "property": "C59",
   "status": "proved",
   "theorems": [
    "Verif.Props.C59_deployed_key",
    "Verif.Props.C59_accepted_format",
    "Verif.Props.C59_five_members"
   ],
   "note": ""
  },
  {
   "property": "C60",
   "status": "proved",
   "theorems": [
    "Verif.Props.C60_transcript_binding"
   ],
   "note": ""
  },
  {
   "property": "C61",
   "status": "proved",
   "theorems": [
    "Verif.Props.C61_public_inputs"
   ],
   "note": ""
  },
  {
   "property": "C62",
   "status": "proved",
   "theorems": [
    "Verif.Props.C62_main_gate",
    "Verif.Props.C62_full_round",
    "Verif.Props.C62_partial_rounds",
    "Verif.Props.C62_absorb"
   ],
   "note": ""
  },
  {
   "property": "C63",
   "status": "proved",
   "theorems": [
    "Verif.Props.C63_verify_iff"
   ],
   "note": ""
  },
  {
   "property": "C64",
   "status": "proved",
   "theorems": [
    "Verif.Props.C64_soundness",
    "Verif.Props.C64_interactive",
    "Verif.Props.C64_error",
    "Verif.Props.C64_on_chain"
   ],
   "note": "Algebraic provers: the statement is about proofs whose commitments come from known polynomials. Fiat-Shamir is treated round by round: the exceptional values of each challenge are fixed by what it hashes; that a hash avoids them is not a theorem about any fixed hash function. What the fixed columns of the deployed key contain is not modelled (only their commitments are in the repository)."
  },
  {
   "property": "C65",
   "status": "proved",
   "theorems": [
    "Verif.Props.C65_completeness",
    "Verif.Props.C65_on_chain",
    "Verif.Props.C65_decides",
    "Verif.Props.C65_deployed"
   ],
   "note": "Existence of an honest prover and acceptance of its proofs; that the prover of the library is this one is not modelled. That the commitments of a proof are finite is a hypothesis (the contract rejects the others, C59)."
  },
  {
   "property": "C66",
   "status": "proved",
   "theorems": [
    "Verif.Props.C66_order",
    "Verif.Props.C66_log",
    "Verif.Props.C66_causes",
    "Verif.Props.C66_ready",
    "Verif.Props.C66_never",
    "Verif.Props.C66_stray",
    "Verif.Props.C66_pre"
   ],
   "note": "C66_stray proves the exception (a violation of the order) for zkdvrf.sol."
  },
  {
   "property": "C67",
   "status": "proved",
   "theorems": [
    "Verif.Props.C67_setup",
    "Verif.Props.C67_random",
    "Verif.Props.C67_repeated"
   ],
   "note": "A handler is one step: the contract does not change between its reads and its transaction. The publication of a random assumes reduced responses and evaluations made with the share of the key (see C46, C52)."
  },
  {
   "property": "C68",
   "status": "proved",
   "theorems": [
    "Verif.Props.C68_draw",
    "Verif.Props.C68_bets",
    "Verif.Props.C68_play"
   ],
   "note": ""
  },
  {
   "property": "C69",
   "status": "proved",
   "theorems": [
    "Verif.Props.C69_mock",
    "Verif.Props.C69_steps",
    "Verif.Props.C69_dkg_iff",
    "Verif.Props.C69_random_sound",
    "Verif.Props.C69_missing_files"
   ],
   "note": "Files of failing commands are not modelled."
  },
  {
   "property": "C70",
   "status": "proved",
   "theorems": [
    "Verif.Props.C70_parse",
    "Verif.Props.C70_client_config",
    "Verif.Props.C70_service_command",
    "Verif.Props.C70_matches_contract",
    "Verif.Props.C70_violation_missing_degree",
    "Verif.Props.C70_run_options",
    "Verif.Props.C70_violation_flags"
   ],
   "note": "C70_violation_* prove the exceptions. `parseInt`, number formatting and the option parser `bcfg` are external and modelled by their documented behaviour."
  },
  {
   "property": "C71",
   "status": "proved",
   "theorems": [
    "Verif.Props.C71_group_key_uniform",
    "Verif.Props.C71_output_uniform"
   ],
   "note": "About the shares a coalition sees, not the public commitments, which fix the secrets (their hiding rests on discrete logarithms). C09_number_of_dealings gives the count for one dealing."
  },
  {
   "property": "C72",
   "status": "proved",
   "theorems": [
    "Verif.Props.C72_simulation",
    "Verif.Props.C72_nonce_reuse"
   ],
   "note": "In the random-oracle style: the simulator programs the hash at one point."
  },
  {
   "property": "C73",
   "status": "proved",
   "theorems": [
    "Verif.Props.C73_same_verifier",
    "Verif.Props.C73_embedded_key",
    "Verif.Props.C73_accepted_format",
    "Verif.Props.C73_verify_iff",
    "Verif.Props.C73_violation_other_key"
   ],
   "note": "Branches for accumulators are not modelled (the key has none)."
  },
  {
   "property": "C74",
   "status": "proved",
   "theorems": [
    "Verif.Props.C74_sound",
    "Verif.Props.C74_g2a_only_checked_outside",
    "Verif.Props.C74_circuit_exact",
    "Verif.Props.C74_honest_instance_satisfies"
   ],
   "note": "g2a is assumed in the prime-order subgroup (the decoder does not check it, see C50)."
  },
  {
   "property": "C75",
   "status": "proved",
   "theorems": [
    "Verif.Props.C75_randoms_from_draws",
    "Verif.Props.C75_pre_randoms_from_draws"
   ],
   "note": "Soundness of the SNARK is the hypothesis Spec.SnarkSound."
  },
  {
   "property": "C76",
   "status": "proved",
   "theorems": [
    "Verif.Props.C76_demo_runs",
    "Verif.Props.C76_late_member"
   ],
   "note": "A handler runs when the scripts wait for it; other interleavings of handlers within a script are not modelled except the late-member case."
  },
  {
   "property": "C77",
   "status": "proved",
   "theorems": [
    "Verif.Props.C77_uint_argument",
    "Verif.Props.C77_deploy_with_helpers",
    "Verif.Props.C77_deploy_without_helpers",
    "Verif.Props.C77_violation_wrong_key",
    "Verif.Props.C77_client_agrees",
    "Verif.Props.C77_violation_hex",
    "Verif.Props.C77_add_members",
    "Verif.Props.C77_second_start",
    "Verif.Props.C77_demo_from_deployment"
   ],
   "note": "The address syntax of ethers is a parameter; gas and failing transactions other than reverts are not modelled."
  },
  {
   "property": "C78",
   "status": "proved",
   "theorems": [
    "Verif.Props.C78_layout_enforces_dealing",
    "Verif.Props.C78_public_inputs",
    "Verif.Props.C78_satisfied_layout"
   ],
   "note": "The external integer chip is a parameter with the hypothesis IntegerImpl.Correct; the main gate and the Poseidon chip are laid out from their documentation. That key generation produces a key that belongs to the layout is the hypothesis Realizes."
  },
  {
   "property": "C79",
   "status": "proved",
   "theorems": [
    "Verif.Props.C79_on_chain_dealing",
    "Verif.Props.C79_contract_submission"
   ],
   "note": "For provers whose commitments are commitments of known polynomials (algebraic provers); the exceptions are counted by C64."
  },
  {
   "property": "C80",
   "status": "proved",
   "theorems": [
    "Verif.Props.C80_honest_prover",
    "Verif.Props.C80_most_secrets"
   ],
   "note": "The external integer chip is a parameter with the hypothesis IntegerImpl.Complete (its witnesses satisfy its constraints); a chip that meets both this and the hypothesis of C78 is exhibited. create_proof after the table is filled is external."
  },
  {
   "property": "C81",
   "status": "proved",
   "theorems": [
    "Verif.Props.C81_sound_history",
    "Verif.Props.C81_pre_sound_history",
    "Verif.Props.C81_contract_keys"
   ],
   "note": "For algebraic provers; that the key belongs to the layout (Realizes) and the external integer chip (IntegerImpl.Correct) are hypotheses as in C79."
  },
  {
   "property": "C82",
   "status": "proved",
   "theorems": [
    "Verif.Props.C82_satisfied_iff",
    "Verif.Props.C82_columns",
    "Verif.Props.C82_honest_submission",
    "Verif.Props.C82_keys_exist",
    "Verif.Props.C82_accepted"
   ],
   "note": "The external integer chip (IntegerImpl.Complete) and key generation (RealizesExactly) are hypotheses; keys for every layout that fits are constructed (C82_keys_exist). That commitments are not at infinity, which the verifier contract requires, remains a condition."
  },
  {
   "property": "C83",
   "status": "proved",
   "theorems": [
    "Verif.Props.C83_deployment_exists",
    "Verif.Props.C83_contract_keys"
   ],
   "note": "The integer chip of this witness (Lemmas/LimbChip: four limbs, one carry check per operation) is not the one of halo2wrong; the theorem shows that the hypotheses of C79, C81 and C82 can be met together, and by a circuit of possible size."
  },
  {
   "property": "C84",
   "status": "proved",
   "theorems": [
    "Verif.Props.C84_read_back",
    "Verif.Props.C84_values",
    "Verif.Props.C84_trailing"
   ],
   "note": "serde_json and std::fs are modelled (Model/Json, Model/Disk), not verified."
  },
  {
   "property": "C85",
   "status": "proved",
   "theorems": [
    "Verif.Props.C85_stopped"
   ],
   "note": "A write empties the file and then fills it from the beginning (fs::write); loss of written data on power failure is not modelled."
  },
  {
   "property": "C86",
   "status": "proved",
   "theorems": [
    "Verif.Props.C86_own_files",
    "Verif.Props.C86_names",
    "Verif.Props.C86_isolation",
    "Verif.Props.C86_keys",
    "Verif.Props.C86_escape",
    "Verif.Props.C86_keygen_replaces"
   ],
   "note": "The failure for names with slashes is proved as C86_escape."
  },
  {
   "property": "C87",
   "status": "proved",
   "theorems": [
    "Verif.Props.C87_again",
    "Verif.Props.C87_many"
   ],
   "note": ""
  },
  {
   "property": "C88",
   "status": "proved",
   "theorems": [
    "Verif.Props.C88_together",
    "Verif.Props.C88_members",
    "Verif.Props.C88_derive"
   ],
   "note": ""
  },
  {
   "property": "C89",
   "status": "proved",
   "theorems": [
    "Verif.Props.C89_keygen",
    "Verif.Props.C89_prove",
    "Verif.Props.C89_dkgVerify",
    "Verif.Props.C89_eval",
    "Verif.Props.C89_verifyEval",
    "Verif.Props.C89_combine",
    "Verif.Props.C89_verifyFinal",
    "Verif.Props.C89_derive",
    "Verif.Props.C89_failure",
    "Verif.Props.C89_derive_failed"
   ],
   "note": "The exception is proved as C89_derive_failed. The mock commands are in C90."
  },
  {
   "property": "C90",
   "status": "proved",
   "theorems": [
    "Verif.Props.C90_members",
    "Verif.Props.C90_random",
    "Verif.Props.C90_dkg",
    "Verif.Props.C90_pipeline"
   ],
   "note": "The steps of mock as three commands in the order of bin/client.rs:364-386; view reads the values of the files."
  },
  {
   "property": "C91",
   "status": "proved",
   "theorems": [
    "Verif.Props.C91_same_chain",
    "Verif.Props.C91_no_failure",
    "Verif.Props.C91_rounds",
    "Verif.Props.C91_progress",
    "Verif.Props.C91_completes",
    "Verif.Props.C91_keys",
    "Verif.Props.C91_restart",
    "Verif.Props.C91_violation_pending"
   ],
   "note": "The exception is proved as C91_violation_pending. Assumptions as in C55: good draws, honest services, the interval does not elapse before a round is complete; each service has its own data directory as in the compose file. A stop between sending and mining is only covered by the violation and by passes that complete."
  },
  {
   "property": "C92",
   "status": "proved",
   "theorems": [
    "Verif.Props.C92_verify_after_prove",
    "Verif.Props.C92_verify_after_prove_files",
    "Verif.Props.C92_rejected"
   ],
   "note": "create_proof and verify_proof of halo2 are parameters (any functions). The verification key used by both commands is the one loaded from the same parameter directory."
  },
  {
   "property": "C93",
   "status": "proved",
   "theorems": [
    "Verif.Props.C93_command_lines",
    "Verif.Props.C93_effect",
    "Verif.Props.C93_arguments",
    "Verif.Props.C93_passes",
    "Verif.Props.C93_histories",
    "Verif.Props.C93_no_failure",
    "Verif.Props.C93_completes",
    "Verif.Props.C93_violation_dash",
    "Verif.Props.C93_violation_quote",
    "Verif.Props.C93_spellings"
   ],
   "note": "The limits are C93_violation_dash and C93_violation_quote. The shell is modelled for words, double quotes and assignments only (any other construct counts as a failure, and none occurs); clap is modelled for the options the client declares."
  },
  {
   "property": "C94",
   "status": "proved",
   "theorems": [
    "Verif.Props.C94_honest_prover",
    "Verif.Props.C94_rounds",
    "Verif.Props.C94_other_passes",
    "Verif.Props.C94_dealing",
    "Verif.Props.C94_no_failure",
    "Verif.Props.C94_progress",
    "Verif.Props.C94_completes",
    "Verif.Props.C94_stage",
    "Verif.Props.C94_starts",
    "Verif.Props.C94_keys",
    "Verif.Props.C94_keys_are_sums",
    "Verif.Props.C94_histories"
   ],
   "note": "Removes the soundness and completeness assumptions from C55 and C91; only auxiliary points that fit the tables of the circuit and a hash that is never zero are assumed (Sane). C94_honest_prover composes it with C82: halo2's client-side verifier stays a hypothesis there (`M.verifier`)."
  },
  {
   "property": "C95",
   "status": "proved",
   "theorems": [
    "Verif.Props.C95_reports_differences",
    "Verif.Props.C95_silent",
    "Verif.Props.C95_chain",
    "Verif.Props.C95_services",
    "Verif.Props.C95_pass"
   ],
   "note": "BigInt is modelled on text with prefix 0x, the only form the client writes."
  },
  {
   "property": "C96",
   "status": "proved",
   "theorems": [
    "Verif.Props.C96_atomic_node",
    "Verif.Props.C96_atomic_admin",
    "Verif.Props.C96_atomic_history",
    "Verif.Props.C96_commands_succeed",
    "Verif.Props.C96_transactions",
    "Verif.Props.C96_stopped",
    "Verif.Props.C96_quorum_left",
    "Verif.Props.C96_completes",
    "Verif.Props.C96_steps",
    "Verif.Props.C96_every_schedule",
    "Verif.Props.C96_never_stuck",
    "Verif.Props.C96_violation_late_evaluations",
    "Verif.Props.C96_violation_second_dealing"
   ],
   "note": "Reads of one step see one state. An evaluation that arrives in a later round and is accepted there by chance is assumed to be right (NoLuck; negligible probability)."
  },
  {
   "property": "C97",
   "status": "proved",
   "theorems": [
    "Verif.Props.C97_clock",
    "Verif.Props.C97_invalid_date",
    "Verif.Props.C97_spacing",
    "Verif.Props.C97_rate",
    "Verif.Props.C97_fast_rounds",
    "Verif.Props.C97_possible",
    "Verif.Props.C97_honest_run",
    "Verif.Props.C97_violation_restart"
   ],
   "note": "A transaction of a pass takes effect when it is sent; its confirmation may come at any later time. Overlapping passes are C96."
  },
  {
   "property": "C98",
   "status": "proved",
   "theorems": [
    "Verif.Props.C98_overlapping",
    "Verif.Props.C98_files",
    "Verif.Props.C98_commands_succeed",
    "Verif.Props.C98_transactions",
    "Verif.Props.C98_again",
    "Verif.Props.C98_completes",
    "Verif.Props.C98_every_schedule",
    "Verif.Props.C98_any_files",
    "Verif.Props.C98_any_keys_are_sums",
    "Verif.Props.C98_any_commands_succeed",
    "Verif.Props.C98_any_dealing",
    "Verif.Props.C98_any_transactions",
    "Verif.Props.C98_any_again",
    "Verif.Props.C98_any_completes",
    "Verif.Props.C98_any_start",
    "Verif.Props.C98_unsound_commands_succeed",
    "Verif.Props.C98_unsound_transactions",
    "Verif.Props.C98_unsound_completes",
    "Verif.Props.C98_unsound_every_schedule",
    "Verif.Props.C98_honest_prover"
   ],
   "note": "The commands of a pass run completely or not at all (half-written files are C91). A node is killed with a registration on its way only if that transaction is lost (otherwise C91_violation_pending). Evaluations mined in a later round: NoLuck as in C96. C98_any_*: any proof system (simulated by an ideal one, which says yes exactly to satisfiable instances); C98_unsound_*: complete proof systems without soundness."
  },
  {
   "property": "C99",
   "status": "proved",
   "theorems": [
    "Verif.Props.C99_files",
    "Verif.Props.C99_dealing",
    "Verif.Props.C99_evaluations",
    "Verif.Props.C99_commands_succeed",
    "Verif.Props.C99_transactions",
    "Verif.Props.C99_registers",
    "Verif.Props.C99_deals",
    "Verif.Props.C99_evaluates",
    "Verif.Props.C99_quorum",
    "Verif.Props.C99_random",
    "Verif.Props.C99_fresh",
    "Verif.Props.C99_overlapping",
    "Verif.Props.C99_guarded",
    "Verif.Props.C99_any_files",
    "Verif.Props.C99_any_dealing",
    "Verif.Props.C99_any_evaluations",
    "Verif.Props.C99_any_commands_succeed",
    "Verif.Props.C99_any_transactions",
    "Verif.Props.C99_any_keys_are_sums",
    "Verif.Props.C99_any_registers",
    "Verif.Props.C99_any_deals",
    "Verif.Props.C99_any_quorum",
    "Verif.Props.C99_any_random",
    "Verif.Props.C99_any_fresh",
    "Verif.Props.C99_any_overlapping",
    "Verif.Props.C99_adversaries"
   ],
   "note": "Rounds one to nine: the string comparison of the node (C56). Minimum deposit zero, and keys in the usual form, are hypotheses where they matter (C51: another member can prevent dealings by registering an unusual form of its key). Evaluations mined in a later round: NoLuck as in C96. Nothing is claimed of the group public key and of the publication of randoms: both are up to the owner."
  }
 ]
}