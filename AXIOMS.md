# Axioms each claimed theorem depends on

Written by `tools/axioms.py` from `#print axioms`.

| theorem | axioms |
|---|---|
| Homfa.C01_from_nfa_language | propext, Classical.choice, Quot.sound |
| Homfa.C02_from_nfa_terminates | propext, Classical.choice, Quot.sound |
| Homfa.C02_from_nfa_trim | propext, Classical.choice, Quot.sound |
| Homfa.C03_reversed_language | propext, Classical.choice, Quot.sound |
| Homfa.C04_minimized_language | propext, Classical.choice, Quot.sound |
| Homfa.C05_minimized_minimal | propext, Classical.choice, Quot.sound |
| Homfa.C05_minimized_trim | propext, Classical.choice, Quot.sound |
| Homfa.C06_removed_unreachable | propext, Classical.choice, Quot.sound |
| Homfa.C07_grouped | propext, Classical.choice, Quot.sound |
| Homfa.C07_grouped_quotient | propext, Classical.choice, Quot.sound |
| Homfa.C08_union_find | propext, Classical.choice, Quot.sound |
| Homfa.C09_negated_language | propext, Classical.choice, Quot.sound |
| Homfa.C09_negated_twice | propext, Classical.choice, Quot.sound |
| Homfa.C10_prev_states_inverse | propext, Classical.choice, Quot.sound |
| Homfa.C11_states_at_depth | propext, Classical.choice, Quot.sound |
| Homfa.C12_track_live_states | propext, Classical.choice, Quot.sound |
| Homfa.C13_transition64_partial | propext, Classical.choice, Quot.sound |
| Homfa.C13_transition64_at_32 | propext, Classical.choice, Quot.sound |
| Homfa.C13_transition64_claim_false_at_32 | propext, Classical.choice, Quot.sound |
| Homfa.C13_transition64_ub_above_32 | propext, Classical.choice, Quot.sound |
| Homfa.C14_dump_parse | propext, Classical.choice, Quot.sound |
| Homfa.C15_att_roundtrip_from_state0 | propext, Classical.choice, Quot.sound |
| Homfa.C15_att_roundtrip_partial | propext, Classical.choice, Quot.sound |
| Homfa.C15_att_roundtrip_false | propext, Classical.choice, Quot.sound |
| Homfa.C16_spec_meaning | propext, Classical.choice, Quot.sound |
| Homfa.C16_no_rows | propext, Classical.choice, Quot.sound |
| Homfa.C16_bad_spec_rejected | propext, Classical.choice, Quot.sound |
| Homfa.C16_skip_line | propext, Quot.sound |
| Homfa.C16_wrong_number_dies | propext, Classical.choice, Quot.sound |
| Homfa.C16_empty_item_dies | propext, Classical.choice, Quot.sound |
| Homfa.C17_built_graphs_complete | propext, Classical.choice, Quot.sound |
| Homfa.C18_spec2spec | propext, Classical.choice, Quot.sound |
| Homfa.C19_records | propext, Classical.choice, Quot.sound |
| Homfa.C19_truncated | propext, Classical.choice, Quot.sound |
| Homfa.C19_aborts_iff | propext, Classical.choice, Quot.sound |
| Homfa.C19_no_propositions | propext, Quot.sound |
| Homfa.C20_load_saved | propext, Classical.choice, Quot.sound |
| Homfa.C20_save_size | propext, Quot.sound |
| Homfa.C20_sequence | propext, Classical.choice, Quot.sound |
| Homfa.C20_truncated | propext, Classical.choice, Quot.sound |
| Homfa.C21_forward_stream | propext, Classical.choice, Quot.sound |
| Homfa.C21_bad_file | propext, Classical.choice, Quot.sound |
| Homfa.C21_no_data_race | propext, Classical.choice, Quot.sound |
| Homfa.C22_reversed_stream | propext, Classical.choice, Quot.sound |
| Homfa.C23_seek | propext, Classical.choice, Quot.sound |
| Homfa.C23_seek_before_start | propext, Quot.sound |
| Homfa.C23_tell | propext, Quot.sound |
| Homfa.C23_is_beg | propext, Classical.choice, Quot.sound |
| Homfa.C23_is_end_never | propext, Quot.sound |
| Homfa.C23_is_end_wrong | none |
| Homfa.C24_decrypts | propext, Quot.sound |
| Homfa.C24_threshold_exact | propext, Quot.sound |
| Homfa.C24_threshold_zero | propext, Classical.choice, Quot.sound |
| Homfa.C25_is_multiplication | propext, Classical.choice, Quot.sound |
| Homfa.C25_coefficients | propext, Classical.choice, Quot.sound |
| Homfa.C25_identity | propext, Classical.choice, Quot.sound |
| Homfa.C25_compose | propext, Classical.choice, Quot.sound |
| Homfa.C25_inverse | propext, Classical.choice, Quot.sound |
| Homfa.C25_out_of_range | propext, Quot.sound |
| Homfa.C26_product_is_negacyclic | propext, Classical.choice, Quot.sound |
| Homfa.C26_add_tlwe | propext, Classical.choice, Quot.sound |
| Homfa.C26_add_trlwe | propext, Classical.choice, Quot.sound |
| Homfa.C26_mult_X_k | propext, Classical.choice, Quot.sound |
| Homfa.C26_trivial | propext, Classical.choice, Quot.sound |
| Homfa.C26_trivial_constants | propext, Classical.choice, Quot.sound |
| Homfa.C26_extract | propext, Classical.choice, Quot.sound |
| Homfa.C27_half_to_half | propext, Classical.choice, Quot.sound |
| Homfa.C27_half_to_eighth | propext, Classical.choice, Quot.sound |
| Homfa.C27_eighth_to_eighth | propext, Classical.choice, Quot.sound |
| Homfa.C27_level0 | propext, Classical.choice, Quot.sound |
| Homfa.C28_offline_decides | propext, Classical.choice, Quot.sound |
| Homfa.C28_offline_aborts | propext, Classical.choice, Quot.sound |
| Homfa.C29_reverse_decides | propext, Classical.choice, Quot.sound |
| Homfa.C29_reverse_spec_reversed | propext, Classical.choice, Quot.sound |
| Homfa.C30_block_decides | propext, Classical.choice, Quot.sound |
| Homfa.C30_block_empty | propext, Quot.sound |
| Homfa.C31_block_noise | propext, Classical.choice, Quot.sound |
| Homfa.C32_flut_noise | propext, Classical.choice, Quot.sound |
| Homfa.C32_flut_decides | propext, Classical.choice, Quot.sound |
| Homfa.C32_flut_no_exit | propext, Classical.choice, Quot.sound |
| Homfa.C32_flut_queue0 | propext, Classical.choice, Quot.sound |
| Homfa.C33_flut_packing | propext, Classical.choice, Quot.sound |
| Homfa.C33_flut_too_deep | propext, Quot.sound |
| Homfa.C33_flut_too_deep_wrong | propext, Classical.choice, Quot.sound |
| Homfa.C34_lookup_selects | propext, Classical.choice, Quot.sound |
| Homfa.C34_wrong_size | propext |
| Homfa.C35_backstream_update | propext, Classical.choice, Quot.sound |
| Homfa.C35_backstream_bootstrap | propext, Classical.choice, Quot.sound |
| Homfa.C35_lookup_layer | propext, Classical.choice, Quot.sound |
| Homfa.C35_block_propagate | propext, Classical.choice, Quot.sound |
| Homfa.C35_block_extract | propext, Classical.choice, Quot.sound |
| Homfa.C35_block_circuit_bootstrap | propext, Classical.choice, Quot.sound |
| Homfa.C35_flut_fill | propext, Classical.choice, Quot.sound |
| Homfa.C35_flut_rotate | propext, Classical.choice, Quot.sound |
| Homfa.C35_flut_split | propext, Classical.choice, Quot.sound |
| Homfa.C35_online1_update | propext, Classical.choice, Quot.sound |
| Homfa.C35_online1_bootstrap | propext, Classical.choice, Quot.sound |
| Homfa.C35_counter_minus | propext, Classical.choice, Quot.sound |
| Homfa.C35_counter_update | propext, Classical.choice, Quot.sound |
| Homfa.C35_counter_lookup_layer | propext, Classical.choice, Quot.sound |
| Homfa.C35_btt_block | propext, Classical.choice, Quot.sound |
| Homfa.C36_offline | propext, Classical.choice, Quot.sound |
| Homfa.C37_reverse | propext, Classical.choice, Quot.sound |
| Homfa.C38_block | propext, Classical.choice, Quot.sound |
| Homfa.C39_flut | propext, Classical.choice, Quot.sound |
| Homfa.C40_bench_plain | propext, Classical.choice, Quot.sound |
| Homfa.C40_reverse_outputs | propext, Classical.choice, Quot.sound |
| Homfa.C40_flut_outputs | propext, Classical.choice, Quot.sound |
| Homfa.C40_freq0 | none |
| Homfa.C40_one_output | propext, Quot.sound |
| Homfa.C40_last_output | propext, Quot.sound |
| Homfa.C41_ltl_language | propext, Classical.choice, Quot.sound |
| Homfa.C42_reversed_nfa_delta | propext, Quot.sound |
| Homfa.C42_ltl_reversed | propext, Classical.choice, Quot.sound |
| Homfa.C43_ltl_prefixes | propext, Classical.choice, Quot.sound |
| Homfa.C44_online1_weights | propext, Classical.choice, Quot.sound |
| Homfa.C44_online1_result_aborts | propext, Classical.choice, Quot.sound |
| Homfa.C44_online1_never_answers | propext, Quot.sound |
| Homfa.C44_online1_sizes | propext, Classical.choice, Quot.sound |
| Homfa.C45_sanitize_no_object | propext, Quot.sound |
| Homfa.C45_sanitize_exits | propext, Classical.choice, Quot.sound |
| Homfa.C46_uint2weight | propext, Quot.sound |
| Homfa.C46_dump | propext, Classical.choice, Quot.sound |
| Homfa.C46_layout | propext, Classical.choice, Quot.sound |
| Homfa.C47_dump_csv | propext, Classical.choice, Quot.sound |
| Homfa.C48_offline_cmux | propext, Classical.choice, Quot.sound |
| Homfa.C48_reverse_cmux | propext, Classical.choice, Quot.sound |
| Homfa.C48_block_cmux | propext, Classical.choice, Quot.sound |
| Homfa.C49_hom_xor | propext, Classical.choice, Quot.sound |
| Homfa.C50_counter | propext, Classical.choice, Quot.sound |
| Homfa.C51_agree_partial | propext, Classical.choice, Quot.sound |
| Homfa.C51_test_btt | propext, Classical.choice, Quot.sound |
| Homfa.C51_violated | propext, Quot.sound |
| Homfa.C51_single_fails | propext, Classical.choice, Quot.sound |
| Homfa.C51_exact | propext, Classical.choice, Quot.sound |
| Homfa.C52_att_meaning | propext, Classical.choice, Quot.sound |
| Homfa.C52_bad_att_rejected | propext, Classical.choice, Quot.sound |
| Homfa.C53_bench_reversed | propext, Classical.choice, Quot.sound |
| Homfa.C53_bench_block | propext, Classical.choice, Quot.sound |
| Homfa.C53_bench_flut | propext, Classical.choice, Quot.sound |
| Homfa.C53_bench_offline | propext, Classical.choice, Quot.sound |
| Homfa.C53_bench_offline_empty_wrong | propext, Classical.choice, Quot.sound |
| Homfa.C54_ltl2spec | propext, Classical.choice, Quot.sound |
| Homfa.C55_ltl_refuses | propext, Classical.choice, Quot.sound |
| Homfa.C56_att2spec | propext, Classical.choice, Quot.sound |
| Homfa.C56_spec2att | propext, Classical.choice, Quot.sound |
| Homfa.C57_spec2dot | propext, Classical.choice, Quot.sound |
| Homfa.Cli.C58_runs | propext, Classical.choice, Quot.sound |
| Homfa.Cli.C58_only | propext, Classical.choice, Quot.sound |
| Homfa.Cli.C58_never_throws | propext, Classical.choice, Quot.sound |
| Homfa.Cli.C58_run_arguments | propext, Classical.choice, Quot.sound |
| Homfa.Cli.C58_bench | propext, Classical.choice, Quot.sound |
| Homfa.C59_plain_prints | propext, Classical.choice, Quot.sound |
| Homfa.C59_bad_input | propext, Classical.choice, Quot.sound |
| Homfa.C59_bad_spec | propext, Classical.choice, Quot.sound |
| Homfa.C60_offline | propext, Quot.sound |
| Homfa.C60_reverse | propext, Quot.sound |
| Homfa.C60_block | propext, Quot.sound |
| Homfa.C60_flut | propext, Quot.sound |
| Homfa.C60_enc | propext, Quot.sound |
| Homfa.C60_dec | none |
| Homfa.Cli.C61_offline | propext, Classical.choice, Quot.sound |
| Homfa.Cli.C61_reverse | propext, Classical.choice, Quot.sound |
| Homfa.Cli.C61_block | propext, Classical.choice, Quot.sound |
| Homfa.Cli.C61_flut | propext, Classical.choice, Quot.sound |
| Homfa.Cli.C62_calls | propext, Classical.choice, Quot.sound |
| Homfa.Cli.C62_frame | propext, Classical.choice, Quot.sound |
| Homfa.Cli.C62_enc_onto_itself | propext, Classical.choice, Quot.sound |
| Homfa.Cli.C62_interrupted | propext, Classical.choice, Quot.sound |
| Homfa.C63_offline | propext, Quot.sound |
| Homfa.C63_block | propext, Classical.choice, Quot.sound |
| Homfa.C63_reverse | propext, Classical.choice, Quot.sound |
| Homfa.C63_flut | propext, Classical.choice, Quot.sound |
| Homfa.C63_backstream_work | propext, Quot.sound |
| Homfa.C63_block_work | propext, Classical.choice, Quot.sound |
| Homfa.C63_calls | propext, Classical.choice, Quot.sound |
| Homfa.C63_enc | propext, Classical.choice, Quot.sound |
| Homfa.C64_backstream | propext, Classical.choice, Quot.sound |
| Homfa.C64_block | propext, Classical.choice, Quot.sound |
| Homfa.C64_flut | propext, Classical.choice, Quot.sound |
| Homfa.C64_online1 | propext, Classical.choice, Quot.sound |
| Homfa.C64_offline_decides | propext, Classical.choice, Quot.sound |
| Homfa.C64_reverse_decides | propext, Classical.choice, Quot.sound |
| Homfa.C64_block_decides | propext, Classical.choice, Quot.sound |
| Homfa.C64_flut_decides | propext, Classical.choice, Quot.sound |
| Homfa.C65_offline_ciphertext | propext, Classical.choice, Quot.sound |
| Homfa.C65_reverse_ciphertext | propext, Classical.choice, Quot.sound |
| Homfa.C65_exact_error | propext, Classical.choice, Quot.sound |
| Homfa.C65_right | propext, Classical.choice, Quot.sound |
| Homfa.Cli.C66_offline | propext, Classical.choice, Quot.sound |
| Homfa.Cli.C66_reverse | propext, Classical.choice, Quot.sound |
| Homfa.Cli.C66_block | propext, Classical.choice, Quot.sound |
| Homfa.Cli.C66_flut | propext, Classical.choice, Quot.sound |
| Homfa.Cli.C66_end_is_a_moment | propext, Classical.choice, Quot.sound |
| Homfa.Cli.C66_enc_unnoticed | propext, Classical.choice, Quot.sound |
| Homfa.Cli.C66_uninterrupted | propext, Classical.choice, Quot.sound |
| Homfa.Cli.C67_prints | propext, Classical.choice, Quot.sound |
| Homfa.Cli.C67_plain | propext, Classical.choice, Quot.sound |
| Homfa.Cli.C67_offline | propext, Classical.choice, Quot.sound |
| Homfa.Cli.C67_reverse | propext, Classical.choice, Quot.sound |
| Homfa.Cli.C67_block | propext, Classical.choice, Quot.sound |
| Homfa.Cli.C67_flut | propext, Classical.choice, Quot.sound |
| Homfa.Cli.C68_offline | propext, Classical.choice, Quot.sound |
| Homfa.Cli.C68_offline_restart | propext, Classical.choice, Quot.sound |
| Homfa.Cli.C68_reverse | propext, Classical.choice, Quot.sound |
| Homfa.Cli.C68_reverse_restart | propext, Classical.choice, Quot.sound |
| Homfa.Cli.C68_block | propext, Classical.choice, Quot.sound |
| Homfa.Cli.C68_block_restart | propext, Classical.choice, Quot.sound |
| Homfa.Cli.C68_flut | propext, Classical.choice, Quot.sound |
| Homfa.Cli.C68_flut_restart | propext, Classical.choice, Quot.sound |
| Homfa.C69_sound_iff | propext, Classical.choice, Quot.sound |
| Homfa.C69_same_program | propext, Quot.sound |
| Homfa.C69_own_calls | propext |
| Homfa.C69_offline | propext, Classical.choice, Quot.sound |
| Homfa.C69_reverse | propext, Classical.choice, Quot.sound |
| Homfa.C69_block | propext, Classical.choice, Quot.sound |
| Homfa.C69_flut | propext, Classical.choice, Quot.sound |
| Homfa.C69_reverse_outputs | propext, Classical.choice, Quot.sound |
| Homfa.C69_flut_outputs | propext, Classical.choice, Quot.sound |
| Homfa.Cli.C70_bad_source | propext, Classical.choice, Quot.sound |
| Homfa.Cli.C70_message | propext, Classical.choice, Quot.sound |
| Homfa.Cli.C70_enc_cut | propext, Classical.choice, Quot.sound |
| Homfa.C71_backstream_timer | propext, Classical.choice, Quot.sound |
| Homfa.C71_block_timer | propext, Quot.sound |
| Homfa.C71_offline_total | propext, Classical.choice, Quot.sound |
| Homfa.C71_reverse_total | propext, Classical.choice, Quot.sound |
| Homfa.C71_block_work | propext, Classical.choice, Quot.sound |
| Homfa.C71_flut_work | propext, Classical.choice, Quot.sound |
| Homfa.C72_oracle | propext, Classical.choice, Quot.sound |
| Homfa.C72_agree | propext, Classical.choice, Quot.sound |
| Homfa.C72_test_passes | propext, Classical.choice, Quot.sound |
| Homfa.C72_test_undefined | propext, Classical.choice, Quot.sound |
| Homfa.C73_idempotent | propext, Classical.choice, Quot.sound |
| Homfa.C73_canonical | propext, Classical.choice, Quot.sound |
| Homfa.C73_reversed_minimal | propext, Classical.choice, Quot.sound |
| Homfa.C73_double_reversal | propext, Classical.choice, Quot.sound |
| Homfa.C73_spec2spec | propext, Classical.choice, Quot.sound |
| Homfa.Cli.C74_offline | propext, Classical.choice, Quot.sound |
| Homfa.Cli.C74_reverse | propext, Classical.choice, Quot.sound |
| Homfa.Cli.C74_block | propext, Classical.choice, Quot.sound |
| Homfa.Cli.C74_flut | propext, Classical.choice, Quot.sound |
| Homfa.Cli.C74_normal_end | propext, Classical.choice, Quot.sound |
| Homfa.Cli.C74_without_failures | propext, Classical.choice, Quot.sound |
| Homfa.Cli.C74_script_without_failures | propext, Classical.choice, Quot.sound |
| Homfa.Cli.C74_genkey | propext, Classical.choice, Quot.sound |
| Homfa.Cli.C74_unnoticed | propext, Classical.choice, Quot.sound |
| Homfa.Cli.C74_large_buffer | propext, Classical.choice, Quot.sound |
| Homfa.C75_cut_spec | propext, Classical.choice, Quot.sound |
| Homfa.C75_cut_spec_first | propext, Classical.choice, Quot.sound |
| Homfa.C75_converters | propext, Classical.choice, Quot.sound |
| Homfa.Cli.C75_run_plain | propext, Classical.choice, Quot.sound |
| Homfa.Cli.C75_offline | propext, Classical.choice, Quot.sound |
| Homfa.Cli.C75_reverse | propext, Classical.choice, Quot.sound |
| Homfa.Cli.C75_block | propext, Classical.choice, Quot.sound |
| Homfa.Cli.C75_flut | propext, Classical.choice, Quot.sound |
| Homfa.C75_cut_in_number_wrong | propext, Classical.choice, Quot.sound |
| Homfa.C75_cut_before_initial_wrong | propext, Classical.choice, Quot.sound |
| Homfa.Cli.C76_any_name | propext, Classical.choice, Quot.sound |
| Homfa.Cli.C76_offline | propext, Classical.choice, Quot.sound |
| Homfa.Cli.C76_reverse | propext, Classical.choice, Quot.sound |
| Homfa.Cli.C76_block | propext, Classical.choice, Quot.sound |
| Homfa.Cli.C76_flut | propext, Classical.choice, Quot.sound |
| Homfa.Cli.C76_over_input_offline | propext, Classical.choice, Quot.sound |
| Homfa.Cli.C76_over_input_reverse | propext, Classical.choice, Quot.sound |
| Homfa.Cli.C76_over_input_flut | propext, Classical.choice, Quot.sound |
| Homfa.Cli.C77_plain | propext, Classical.choice, Quot.sound |
| Homfa.Cli.C77_offline | propext, Classical.choice, Quot.sound |
| Homfa.Cli.C77_reversed | propext, Classical.choice, Quot.sound |
| Homfa.Cli.C77_qtrlwe2 | propext, Classical.choice, Quot.sound |
| Homfa.Cli.C77_bbs | propext, Classical.choice, Quot.sound |
| Homfa.Cli.C77_incomplete | propext, Classical.choice, Quot.sound |
| Homfa.Cli.C77_sanitize | propext, Classical.choice, Quot.sound |
| Homfa.Cli.C77_time | propext, Classical.choice, Quot.sound |
| Homfa.C78_offline | propext, Classical.choice, Quot.sound |
| Homfa.C78_reverse | propext, Classical.choice, Quot.sound |
| Homfa.C78_block | propext, Classical.choice, Quot.sound |
| Homfa.C78_flut | propext, Classical.choice, Quot.sound |
| Homfa.C79_offline | propext, Classical.choice, Quot.sound |
| Homfa.C79_reverse | propext, Quot.sound |
| Homfa.C79_block | propext, Classical.choice, Quot.sound |
| Homfa.C79_flut | propext, Classical.choice, Quot.sound |
| Homfa.C79_offline_chance | propext, Classical.choice, Quot.sound |
| Homfa.C79_reverse_chance | propext, Classical.choice, Quot.sound |
| Homfa.C79_block_chance | propext, Classical.choice, Quot.sound |
| Homfa.C79_flut_chance | propext, Classical.choice, Quot.sound |
| Homfa.Cli.C80_run_test | propext, Classical.choice, Quot.sound |
| Homfa.Cli.C80_pass_means | propext, Classical.choice, Quot.sound |
| Homfa.Cli.C80_repo | propext, Classical.choice, Quot.sound |
| Homfa.Cli.C81_suite | propext, Classical.choice, Quot.sound |
| Homfa.Cli.C81_repo | propext, Classical.choice, Quot.sound |
| Homfa.Cli.C82_tapes | propext, Classical.choice, Quot.sound |
| Homfa.Cli.C82_always | propext, Classical.choice, Quot.sound |
| Homfa.Cli.C82_offline | propext, Classical.choice, Quot.sound |
| Homfa.Cli.C82_reverse | propext, Classical.choice, Quot.sound |
| Homfa.Cli.C82_block | propext, Classical.choice, Quot.sound |
| Homfa.Cli.C82_flut | propext, Classical.choice, Quot.sound |
| Homfa.Cli.C83_stdin | propext, Classical.choice, Quot.sound |
| Homfa.Cli.C83_file | propext, Classical.choice, Quot.sound |
| Homfa.Cli.C83_missing | propext, Classical.choice, Quot.sound |
| Homfa.Cli.C83_spec2spec | propext, Classical.choice, Quot.sound |
| Homfa.Cli.C83_att | propext, Classical.choice, Quot.sound |
| Homfa.C84_dump | propext, Classical.choice, Quot.sound |
| Homfa.C85_report | propext, Classical.choice, Quot.sound |
| Homfa.C85_quiet | propext, Classical.choice, Quot.sound |
| Homfa.C85_status | propext, Classical.choice, Quot.sound |
| Homfa.C86_selector_phase | propext, Classical.choice, Quot.sound |
| Homfa.C86_block_error | propext, Classical.choice, Quot.sound |
| Homfa.C86_selectors_right | propext, Classical.choice, Quot.sound |
| Homfa.Cli.C87_keys_match | propext, Quot.sound |
| Homfa.Cli.C87_keys_stay | propext, Quot.sound |
| Homfa.Cli.C87_stuck | propext, Quot.sound |
| Homfa.Cli.C87_mismatch | propext |
| Homfa.Cli.C87_overwrites | none |
| Homfa.C88_weight_phase | propext, Classical.choice, Quot.sound |
| Homfa.C88_flut_error | propext, Classical.choice, Quot.sound |
| Homfa.C88_boot_right | propext, Classical.choice, Quot.sound |
| Homfa.Tfhe.C89_digits_plain | propext, Classical.choice, Quot.sound |
| Homfa.Tfhe.C89_digits_signed | propext, Classical.choice, Quot.sound |
| Homfa.Tfhe.C89_tfhe_sound | propext, Classical.choice, Quot.sound |
| Homfa.Tfhe.C89_enc_sensible | propext, Classical.choice, Quot.sound |
| Homfa.Tfhe.C89_gates_sound | propext, Classical.choice, Quot.sound |
| Homfa.Tfhe.C89_offline | propext, Classical.choice, Quot.sound |
| Homfa.Tfhe.C89_reverse | propext, Classical.choice, Quot.sound |
| Homfa.Tfhe.C89_block | propext, Classical.choice, Quot.sound |
| Homfa.Tfhe.C89_flut | propext, Classical.choice, Quot.sound |
| Homfa.Tfhe.C89_test_btt | propext, Classical.choice, Quot.sound |
| Homfa.Tfhe.C89_lib | propext, Classical.choice, Quot.sound |
| Homfa.Tfhe.C89_command_line | propext, Classical.choice, Quot.sound |
| Homfa.Tfhe.C89_command_line_reverse | propext, Classical.choice, Quot.sound |
| Homfa.Tfhe.C89_command_line_block | propext, Classical.choice, Quot.sound |
| Homfa.Tfhe.C89_command_line_flut | propext, Classical.choice, Quot.sound |
| Homfa.C90_ends_orderly | propext, Classical.choice, Quot.sound |
| Homfa.C90_some_end | propext, Classical.choice, Quot.sound |
| Homfa.C90_flut_wide_queue | propext, Classical.choice, Quot.sound |
| Homfa.C90_flut_deep | propext, Classical.choice, Quot.sound |
| Homfa.C90_empty_spec | propext, Classical.choice, Quot.sound |
| Homfa.C91_layout | propext, Classical.choice, Quot.sound |
| Homfa.C91_damage | propext, Classical.choice, Quot.sound |
| Homfa.C91_printed | propext, Classical.choice, Quot.sound |
| Homfa.C91_nothing_left | propext, Classical.choice, Quot.sound |
| Homfa.C91_crlf | propext, Quot.sound |
| Homfa.C91_crlf_att | propext, Classical.choice, Quot.sound |
| Homfa.C91_converters | propext, Classical.choice, Quot.sound |
| Homfa.Cli.C91_run_plain | propext, Classical.choice, Quot.sound |
| Homfa.Cli.C91_offline | propext, Classical.choice, Quot.sound |
| Homfa.Cli.C91_reverse | propext, Classical.choice, Quot.sound |
| Homfa.Cli.C91_block | propext, Classical.choice, Quot.sound |
| Homfa.Cli.C91_flut | propext, Classical.choice, Quot.sound |
| Homfa.C91_initial_lost_wrong | propext, Classical.choice, Quot.sound |
| Homfa.Cli.C92_offline | propext, Classical.choice, Quot.sound |
| Homfa.Cli.C92_reverse | propext, Classical.choice, Quot.sound |
| Homfa.Cli.C92_block | propext, Classical.choice, Quot.sound |
| Homfa.Cli.C92_flut | propext, Classical.choice, Quot.sound |
| Homfa.Cli.C93_passes | propext, Classical.choice, Quot.sound |
| Homfa.Cli.C93_tables | propext, Classical.choice, Quot.sound |
| Homfa.Cli.C93_spec_language | propext, Classical.choice, Quot.sound |
| Homfa.Cli.C93_formula_language | propext, Classical.choice, Quot.sound |
| Homfa.Cli.C93_ciphertexts | propext, Classical.choice, Quot.sound |
| Homfa.Cli.C93_repo | propext, Classical.choice, Quot.sound |
| Homfa.Cli.C93_table_text | propext, Classical.choice, Quot.sound |
| Homfa.Cli.C93_comparison | propext, Classical.choice, Quot.sound |
| Homfa.Cli.C94_history | propext, Classical.choice, Quot.sound |
| Homfa.Cli.C94_dec | propext, Classical.choice, Quot.sound |
| Homfa.C95_generated | propext, Quot.sound |
| Homfa.C95_offline | propext, Classical.choice, Quot.sound |
| Homfa.C95_reverse | propext, Classical.choice, Quot.sound |
| Homfa.C95_block | propext, Classical.choice, Quot.sound |
| Homfa.C95_flut | propext, Classical.choice, Quot.sound |
| Homfa.Cli.C96_alone | propext, Classical.choice, Quot.sound |
| Homfa.Cli.C96_outcomes | propext, Classical.choice, Quot.sound |
| Homfa.Cli.C96_serial | propext, Classical.choice, Quot.sound |
| Homfa.Cli.C96_together | propext, Classical.choice, Quot.sound |
| Homfa.Cli.C96_schedule | propext, Classical.choice, Quot.sound |
| Homfa.Cli.C96_history | propext, Classical.choice, Quot.sound |
| Homfa.Cli.C96_needed | propext, Classical.choice, Quot.sound |
| Homfa.Cli.C96_race | propext, Classical.choice, Quot.sound |
| Homfa.Cli.C96_shared_output | propext, Classical.choice, Quot.sound |
| Homfa.Cli.C97_ends_orderly | propext, Classical.choice, Quot.sound |
| Homfa.Cli.C97_some_end | propext, Classical.choice, Quot.sound |
| Homfa.Cli.C97_qtrlwe2_stops | propext, Classical.choice, Quot.sound |
| Homfa.Cli.C97_qtrlwe2_wide_queue | propext, Classical.choice, Quot.sound |
| Homfa.Cli.C98_offline | propext, Classical.choice, Quot.sound |
| Homfa.C98_block_ignored | propext, Classical.choice, Quot.sound |
| Homfa.C98_block_wrong | propext, Classical.choice, Quot.sound |
| Homfa.C99_reverse | propext, Classical.choice, Quot.sound |
| Homfa.C99_offline | propext, Classical.choice, Quot.sound |
| Homfa.C99_block | propext, Classical.choice, Quot.sound |
| Homfa.C99_flut | propext, Classical.choice, Quot.sound |
| Homfa.Cli.C100_round_trip_lines | propext, Classical.choice, Quot.sound |
| Homfa.Cli.C100_script | propext, Classical.choice, Quot.sound |
| Homfa.Cli.C100_repo | propext, Classical.choice, Quot.sound |
| Homfa.C101_drop_any_time | propext, Classical.choice, Quot.sound |
| Homfa.C101_load_completed | propext, Classical.choice, Quot.sound |
| Homfa.C102_same_program | propext, Quot.sound |
| Homfa.C102_btt | propext, Classical.choice, Quot.sound |
| Homfa.C102_calls | propext, Classical.choice, Quot.sound |
| Homfa.C102_which_calls | propext, Classical.choice, Quot.sound |
| Homfa.C102_test_btt | propext, Classical.choice, Quot.sound |
| Homfa.Cli.C103_verbose | propext, Classical.choice, Quot.sound |
| Homfa.Cli.C103_quiet | propext, Classical.choice, Quot.sound |
| Homfa.Cli.C103_lines | propext, Classical.choice, Quot.sound |
| Homfa.Cli.C103_measurements | propext, Classical.choice, Quot.sound |
| Homfa.Cli.C104_refused | propext, Classical.choice, Quot.sound |
| Homfa.Cli.C104_nothing_computed | propext, Classical.choice, Quot.sound |
| Homfa.Cli.C104_bench | propext, Classical.choice, Quot.sound |
| Homfa.Cli.C104_ltl | propext, Classical.choice, Quot.sound |
| Homfa.Cli.C104_ltl_iff | propext, Classical.choice, Quot.sound |
| Homfa.Cli.C105_prepared | propext, Classical.choice, Quot.sound |
| Homfa.Cli.C105_bench | propext, Classical.choice, Quot.sound |
| Homfa.Cli.C106_history | propext, Classical.choice, Quot.sound |
| Homfa.Cli.C106_stopped_dec | propext, Classical.choice, Quot.sound |
| Homfa.Cli.C106_nothing_stopped | propext, Classical.choice, Quot.sound |
| Homfa.Cli.C107_others | propext, Classical.choice, Quot.sound |
| Homfa.Cli.C107_stopped | propext, Classical.choice, Quot.sound |
| Homfa.Cli.C107_history | propext, Classical.choice, Quot.sound |
| Homfa.Cli.C107_nothing_stopped | propext, Classical.choice, Quot.sound |
| Homfa.C108_offline_bound | propext, Classical.choice, Quot.sound |
| Homfa.C108_reverse_bound | propext, Classical.choice, Quot.sound |
| Homfa.C108_gap | propext, Classical.choice, Quot.sound |
| Homfa.C108_gap_reversed | propext, Classical.choice, Quot.sound |
| Homfa.C108_ends | propext, Classical.choice, Quot.sound |
| Homfa.Cli.C109_history | propext, Classical.choice, Quot.sound |
| Homfa.Cli.C109_verdict | propext, Classical.choice, Quot.sound |
| Homfa.Cli.C109_stopped | propext, Classical.choice, Quot.sound |
| Homfa.Cli.C109_without_failures | propext, Classical.choice, Quot.sound |
| Homfa.C110_offline | propext, Classical.choice, Quot.sound |
| Homfa.C110_each | propext, Classical.choice, Quot.sound |
| Homfa.C110_reverse | propext, Classical.choice, Quot.sound |
| Homfa.C110_block_tells_apart | propext, Classical.choice, Quot.sound |
| Homfa.Cli.C110_offline_same | propext, Classical.choice, Quot.sound |
| Homfa.Cli.C110_reverse_same | propext, Classical.choice, Quot.sound |
| Homfa.Cli.C111_unique | propext, Classical.choice, Quot.sound |
| Homfa.Cli.C111_no_draw | propext, Classical.choice, Quot.sound |
| Homfa.Cli.C111_named | propext, Classical.choice, Quot.sound |
| Homfa.Cli.C111_repeat | propext, Classical.choice, Quot.sound |
| Homfa.Cli.C111_again | propext, Classical.choice, Quot.sound |
| Homfa.Cli.C111_onto_input | propext, Classical.choice, Quot.sound |
| Homfa.Cli.C112_enc | propext, Classical.choice, Quot.sound |
| Homfa.Cli.C112_offline | propext, Classical.choice, Quot.sound |
| Homfa.Cli.C112_reverse | propext, Classical.choice, Quot.sound |
| Homfa.Cli.C112_block | propext, Classical.choice, Quot.sound |
| Homfa.Cli.C112_flut | propext, Classical.choice, Quot.sound |
| Homfa.C113_justified | propext, Classical.choice, Quot.sound |
| Homfa.C113_reverse | propext, Classical.choice, Quot.sound |
| Homfa.C113_block | propext, Classical.choice, Quot.sound |
| Homfa.C113_flut | propext, Classical.choice, Quot.sound |
| Homfa.C113_mid_step | propext, Classical.choice, Quot.sound |
| Homfa.C113_taken_back_wrong | propext, Classical.choice, Quot.sound |
| Homfa.Cli.C113_plain | propext, Classical.choice, Quot.sound |
| Homfa.Cli.C113_violated | propext |
| Homfa.C114_same_words | propext, Classical.choice, Quot.sound |
| Homfa.C114_eventually | propext, Quot.sound |
| Homfa.Cli.C114_plain | propext, Classical.choice, Quot.sound |
| Homfa.Cli.C114_offline | propext, Classical.choice, Quot.sound |
| Homfa.Cli.C114_reverse | propext, Classical.choice, Quot.sound |
| Homfa.Cli.C114_no_alarm | propext, Classical.choice, Quot.sound |
| Homfa.C115_spec2spec | propext, Classical.choice, Quot.sound |
| Homfa.C115_twice | propext, Classical.choice, Quot.sound |
| Homfa.C115_ltl | propext, Classical.choice, Quot.sound |
| Homfa.C115_att | propext, Classical.choice, Quot.sound |
| Homfa.C115_minimized_alone | propext, Classical.choice, Quot.sound |
| Homfa.Cli.C115_files | propext, Classical.choice, Quot.sound |
| Homfa.Cli.C115_formulas | propext, Classical.choice, Quot.sound |
| Homfa.C116_att | propext, Classical.choice, Quot.sound |
| Homfa.C116_ltl | propext, Classical.choice, Quot.sound |
| Homfa.C116_reversed | propext, Classical.choice, Quot.sound |
| Homfa.C116_other | propext, Classical.choice, Quot.sound |
| Homfa.Cli.C116_ltl2spec | propext, Classical.choice, Quot.sound |
| Homfa.Cli.C116_att2spec | propext, Classical.choice, Quot.sound |
| Homfa.Cli.C116_spec2spec | propext, Classical.choice, Quot.sound |
| Homfa.C117_drawing | propext, Classical.choice, Quot.sound |
| Homfa.C117_same_picture | propext, Classical.choice, Quot.sound |
| Homfa.C117_formula | propext, Classical.choice, Quot.sound |
| Homfa.C117_formulas | propext, Classical.choice, Quot.sound |
| Homfa.Cli.C117_pipeline | propext, Classical.choice, Quot.sound |
| Homfa.Cli.C118_transparent | propext, Classical.choice, Quot.sound |
| Homfa.Cli.C118_quiet | propext, Classical.choice, Quot.sound |
| Homfa.Cli.C118_verbose | propext, Classical.choice, Quot.sound |
| Homfa.Cli.C118_private | propext, Classical.choice, Quot.sound |
| Homfa.Cli.C118_client | propext, Classical.choice, Quot.sound |
| Homfa.Cli.C118_offline | propext, Classical.choice, Quot.sound |
| Homfa.Cli.C118_reverse | propext, Classical.choice, Quot.sound |
| Homfa.Cli.C118_flut | propext, Classical.choice, Quot.sound |
| Homfa.Cli.C118_block | propext, Classical.choice, Quot.sound |
| Homfa.Cli.C118_verdict | propext, Classical.choice, Quot.sound |
| Homfa.C119_runners_right | propext, Classical.choice, Quot.sound |
| Homfa.C119_verdict | propext, Classical.choice, Quot.sound |
| Homfa.C119_passes | propext, Classical.choice, Quot.sound |
| Homfa.C119_false_alarm | propext, Classical.choice, Quot.sound |
| Homfa.C120_drawing | propext, Classical.choice, Quot.sound |
| Homfa.C120_one_reading | propext, Classical.choice, Quot.sound |
| Homfa.C120_words | propext, Classical.choice, Quot.sound |
| Homfa.C120_formula | propext, Classical.choice, Quot.sound |
| Homfa.C121_read | propext, Classical.choice, Quot.sound |
| Homfa.C121_fault | propext, Classical.choice, Quot.sound |
| Homfa.C121_blames | propext, Classical.choice, Quot.sound |
| Homfa.C121_locate | propext, Classical.choice, Quot.sound |
| Homfa.C121_att | propext, Classical.choice, Quot.sound |
| Homfa.Cli.C122_true | propext, Classical.choice, Quot.sound |
| Homfa.Cli.C122_never | propext, Classical.choice, Quot.sound |
| Homfa.Cli.C122_loud | propext, Classical.choice, Quot.sound |
| Homfa.Cli.C122_deep | propext, Classical.choice, Quot.sound |
| Homfa.Cli.C122_speaks | propext, Classical.choice, Quot.sound |
| Homfa.Cli.C122_same | propext, Classical.choice, Quot.sound |
| Homfa.C123_fewest_live | propext, Classical.choice, Quot.sound |
| Homfa.C123_limits | propext, Classical.choice, Quot.sound |
| Homfa.Cli.C123_block | propext, Classical.choice, Quot.sound |
| Homfa.Cli.C123_flut | propext, Classical.choice, Quot.sound |
| Homfa.C124_offline_least | propext, Classical.choice, Quot.sound |
| Homfa.C124_offline_same | propext, Classical.choice, Quot.sound |
| Homfa.C124_reverse_least | propext, Classical.choice, Quot.sound |
| Homfa.C124_reverse_same | propext, Classical.choice, Quot.sound |
