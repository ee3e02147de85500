{
 "claims": [
  {
   "property": "C01",
   "status": "proved",
   "theorems": [
    "Homfa.C01_from_nfa_language"
   ],
   "note": "Hypothesis: the initial set is a std::set and no run leaves the table (C02 shows the other case throws)."
  },
  {
   "property": "C02",
   "status": "proved",
   "theorems": [
    "Homfa.C02_from_nfa_terminates",
    "Homfa.C02_from_nfa_trim"
   ],
   "note": "Termination, exact failure condition and shape of the result."
  },
  {
   "property": "C03",
   "status": "proved",
   "theorems": [
    "Homfa.C03_reversed_language"
   ],
   "note": "For every well-formed graph; every factory yields well-formed graphs (C17)."
  },
  {
   "property": "C04",
   "status": "proved",
   "theorems": [
    "Homfa.C04_minimized_language"
   ],
   "note": "removed_unreachable + table filling + union-find + regrouping, all modelled."
  },
  {
   "property": "C05",
   "status": "proved",
   "theorems": [
    "Homfa.C05_minimized_minimal",
    "Homfa.C05_minimized_trim"
   ],
   "note": "Minimality against every DFA over Fin n, plus reachability and pairwise distinguishability."
  },
  {
   "property": "C06",
   "status": "proved",
   "theorems": [
    "Homfa.C06_removed_unreachable"
   ],
   "note": ""
  },
  {
   "property": "C07",
   "status": "proved",
   "theorems": [
    "Homfa.C07_grouped",
    "Homfa.C07_grouped_quotient"
   ],
   "note": "Includes the quotient characterization."
  },
  {
   "property": "C08",
   "status": "proved",
   "theorems": [
    "Homfa.C08_union_find"
   ],
   "note": "Arbitrary histories of unite/find calls."
  },
  {
   "property": "C09",
   "status": "proved",
   "theorems": [
    "Homfa.C09_negated_language",
    "Homfa.C09_negated_twice"
   ],
   "note": "Complement and involution."
  },
  {
   "property": "C10",
   "status": "proved",
   "theorems": [
    "Homfa.C10_prev_states_inverse"
   ],
   "note": ""
  },
  {
   "property": "C11",
   "status": "proved",
   "theorems": [
    "Homfa.C11_states_at_depth"
   ],
   "note": ""
  },
  {
   "property": "C12",
   "status": "proved",
   "theorems": [
    "Homfa.C12_track_live_states"
   ],
   "note": ""
  },
  {
   "property": "C13",
   "status": "partial",
   "theorems": [
    "Homfa.C13_transition64_partial",
    "Homfa.C13_transition64_at_32",
    "Homfa.C13_transition64_claim_false_at_32",
    "Homfa.C13_transition64_ub_above_32"
   ],
   "note": "The claim as documented is false in the code for length >= 32; proved for <= 31, exact wrong behaviour at 32, UB above 32."
  },
  {
   "property": "C14",
   "status": "proved",
   "theorems": [
    "Homfa.C14_dump_parse"
   ],
   "note": "Full equality of the parsed graph; sizes up to 2^31 (State is int)."
  },
  {
   "property": "C15",
   "status": "partial",
   "theorems": [
    "Homfa.C15_att_roundtrip_from_state0",
    "Homfa.C15_att_roundtrip_partial",
    "Homfa.C15_att_roundtrip_false"
   ],
   "note": "False in the code when the initial state is not 0 (witness proved); proved for initial state 0, and exact behaviour in general."
  },
  {
   "property": "C16",
   "status": "proved",
   "theorems": [
    "Homfa.C16_spec_meaning",
    "Homfa.C16_no_rows",
    "Homfa.C16_bad_spec_rejected",
    "Homfa.C16_skip_line",
    "Homfa.C16_wrong_number_dies",
    "Homfa.C16_empty_item_dies"
   ],
   "note": "Meaning, rejection, skipping and numbering, against a declarative description of spec files."
  },
  {
   "property": "C17",
   "status": "proved",
   "theorems": [
    "Homfa.C17_built_graphs_complete"
   ],
   "note": "An input without spec lines gives an empty graph, which is excluded."
  },
  {
   "property": "C18",
   "status": "proved",
   "theorems": [
    "Homfa.C18_spec2spec"
   ],
   "note": ""
  },
  {
   "property": "C19",
   "status": "proved",
   "theorems": [
    "Homfa.C19_records",
    "Homfa.C19_truncated",
    "Homfa.C19_aborts_iff",
    "Homfa.C19_no_propositions"
   ],
   "note": ""
  },
  {
   "property": "C20",
   "status": "proved",
   "theorems": [
    "Homfa.C20_load_saved",
    "Homfa.C20_save_size",
    "Homfa.C20_sequence",
    "Homfa.C20_truncated"
   ],
   "note": ""
  },
  {
   "property": "C21",
   "status": "proved",
   "theorems": [
    "Homfa.C21_forward_stream",
    "Homfa.C21_bad_file",
    "Homfa.C21_no_data_race"
   ],
   "note": ""
  },
  {
   "property": "C22",
   "status": "proved",
   "theorems": [
    "Homfa.C22_reversed_stream"
   ],
   "note": ""
  },
  {
   "property": "C23",
   "status": "proved",
   "theorems": [
    "Homfa.C23_seek",
    "Homfa.C23_seek_before_start",
    "Homfa.C23_tell",
    "Homfa.C23_is_beg",
    "Homfa.C23_is_end_never",
    "Homfa.C23_is_end_wrong"
   ],
   "note": "is_end() is shown never to hold at a block boundary, as the property says."
  },
  {
   "property": "C24",
   "status": "proved",
   "theorems": [
    "Homfa.C24_decrypts",
    "Homfa.C24_threshold_exact",
    "Homfa.C24_threshold_zero"
   ],
   "note": "threshold exact in both directions"
  },
  {
   "property": "C25",
   "status": "proved",
   "theorems": [
    "Homfa.C25_is_multiplication",
    "Homfa.C25_coefficients",
    "Homfa.C25_identity",
    "Homfa.C25_compose",
    "Homfa.C25_inverse",
    "Homfa.C25_out_of_range"
   ],
   "note": "also the coefficient view, composition, inverse and the out-of-bounds case"
  },
  {
   "property": "C26",
   "status": "proved",
   "theorems": [
    "Homfa.C26_product_is_negacyclic",
    "Homfa.C26_add_tlwe",
    "Homfa.C26_add_trlwe",
    "Homfa.C26_mult_X_k",
    "Homfa.C26_trivial",
    "Homfa.C26_trivial_constants",
    "Homfa.C26_extract"
   ],
   "note": ""
  },
  {
   "property": "C27",
   "status": "proved",
   "theorems": [
    "Homfa.C27_half_to_half",
    "Homfa.C27_half_to_eighth",
    "Homfa.C27_eighth_to_eighth",
    "Homfa.C27_level0"
   ],
   "note": "for every backend satisfying Scheme.Sound"
  },
  {
   "property": "C28",
   "status": "proved",
   "theorems": [
    "Homfa.C28_offline_decides",
    "Homfa.C28_offline_aborts"
   ],
   "note": "for every backend satisfying Scheme.Sound; the abort holds for arbitrary ciphertexts"
  },
  {
   "property": "C29",
   "status": "proved",
   "theorems": [
    "Homfa.C29_reverse_decides",
    "Homfa.C29_reverse_spec_reversed"
   ],
   "note": "for every backend satisfying Scheme.Sound"
  },
  {
   "property": "C30",
   "status": "proved",
   "theorems": [
    "Homfa.C30_block_decides",
    "Homfa.C30_block_empty"
   ],
   "note": "Any history of eval_one/result calls; budget (max 1 queue + B)*cmux + cb < 2^29, B = bits of the largest live set, B < N, B < 31."
  },
  {
   "property": "C31",
   "status": "proved",
   "theorems": [
    "Homfa.C31_block_noise"
   ],
   "note": "Error of every result bounded by (max 1 queue + B) CMUX errors for any history."
  },
  {
   "property": "C32",
   "status": "proved",
   "theorems": [
    "Homfa.C32_flut_noise",
    "Homfa.C32_flut_decides",
    "Homfa.C32_flut_no_exit",
    "Homfa.C32_flut_queue0"
   ],
   "note": "Every history; exit exactly described; queue_size 0 throws out_of_range (C32_flut_queue0). Sizes below 2^31."
  },
  {
   "property": "C33",
   "status": "proved",
   "theorems": [
    "Homfa.C33_flut_packing",
    "Homfa.C33_flut_too_deep",
    "Homfa.C33_flut_too_deep_wrong"
   ],
   "note": "From any runner state; std::log2 modelled by the exact ceiling logarithm. C33_flut_too_deep and C33_flut_too_deep_wrong: what happens when max_second_lut_depth exceeds log2 N, which the program does not check."
  },
  {
   "property": "C34",
   "status": "proved",
   "theorems": [
    "Homfa.C34_lookup_selects",
    "Homfa.C34_wrong_size"
   ],
   "note": "k <= 30 (int shift)."
  },
  {
   "property": "C35",
   "status": "proved",
   "theorems": [
    "Homfa.C35_backstream_update",
    "Homfa.C35_backstream_bootstrap",
    "Homfa.C35_lookup_layer",
    "Homfa.C35_block_propagate",
    "Homfa.C35_block_extract",
    "Homfa.C35_block_circuit_bootstrap",
    "Homfa.C35_flut_fill",
    "Homfa.C35_flut_rotate",
    "Homfa.C35_flut_split",
    "Homfa.C35_online1_update",
    "Homfa.C35_online1_bootstrap",
    "Homfa.C35_counter_minus",
    "Homfa.C35_counter_update",
    "Homfa.C35_counter_lookup_layer",
    "Homfa.C35_btt_block"
   ],
   "note": "One theorem per parallel loop; interleavings are at the granularity of one element access."
  },
  {
   "property": "C36",
   "status": "proved",
   "theorems": [
    "Homfa.C36_offline"
   ],
   "note": ""
  },
  {
   "property": "C37",
   "status": "proved",
   "theorems": [
    "Homfa.C37_reverse"
   ],
   "note": ""
  },
  {
   "property": "C38",
   "status": "proved",
   "theorems": [
    "Homfa.C38_block"
   ],
   "note": ""
  },
  {
   "property": "C39",
   "status": "proved",
   "theorems": [
    "Homfa.C39_flut"
   ],
   "note": "exits exactly as characterised in C32"
  },
  {
   "property": "C40",
   "status": "proved",
   "theorems": [
    "Homfa.C40_bench_plain",
    "Homfa.C40_reverse_outputs",
    "Homfa.C40_flut_outputs",
    "Homfa.C40_freq0",
    "Homfa.C40_one_output",
    "Homfa.C40_last_output"
   ],
   "note": "directory mode of the run commands (main never registers --out-dir, so it is only reachable through the functions)"
  },
  {
   "property": "C41",
   "status": "proved",
   "theorems": [
    "Homfa.C41_ltl_language"
   ],
   "note": "Theorem over all monitors with the guarantees of Spot (ordered, satisfiable conditions, distinct variables); Spot itself is outside the model. Includes n = 0."
  },
  {
   "property": "C42",
   "status": "proved",
   "theorems": [
    "Homfa.C42_reversed_nfa_delta",
    "Homfa.C42_ltl_reversed"
   ],
   "note": "Table reversal and the two LTL constructors, both modes."
  },
  {
   "property": "C43",
   "status": "proved",
   "theorems": [
    "Homfa.C43_ltl_prefixes"
   ],
   "note": "Prefixes may be cut inside a letter."
  },
  {
   "property": "C44",
   "status": "proved",
   "theorems": [
    "Homfa.C44_online1_weights",
    "Homfa.C44_online1_result_aborts",
    "Homfa.C44_online1_never_answers",
    "Homfa.C44_online1_sizes"
   ],
   "note": "For every backend satisfying Scheme.Sound; the refresh interval trunc(log 8000/log n) is modelled by Nat.log."
  },
  {
   "property": "C45",
   "status": "proved",
   "theorems": [
    "Homfa.C45_sanitize_no_object",
    "Homfa.C45_sanitize_exits"
   ],
   "note": "All six constructors."
  },
  {
   "property": "C46",
   "status": "proved",
   "theorems": [
    "Homfa.C46_uint2weight",
    "Homfa.C46_dump",
    "Homfa.C46_layout"
   ],
   "note": ""
  },
  {
   "property": "C47",
   "status": "proved",
   "theorems": [
    "Homfa.C47_dump_csv"
   ],
   "note": "timeit recorder and CSV dump; hash order of unordered_map left unspecified, clock readings arbitrary"
  },
  {
   "property": "C48",
   "status": "proved",
   "theorems": [
    "Homfa.C48_offline_cmux",
    "Homfa.C48_reverse_cmux",
    "Homfa.C48_block_cmux"
   ],
   "note": "OFFLINE, REVERSE and BLOCK; counts recorded by the timer, any ciphertexts."
  },
  {
   "property": "C49",
   "status": "proved",
   "theorems": [
    "Homfa.C49_hom_xor"
   ],
   "note": "for every backend satisfying Scheme.Sound"
  },
  {
   "property": "C50",
   "status": "proved",
   "theorems": [
    "Homfa.C50_counter"
   ],
   "note": "Every history of reset and decrement of an encrypted counter, with any borrow ciphertexts within the error budget; decryption and the zero test agree with arithmetic modulo 2^width for widths up to 32 (decrypt) and 64 (zero test). Rests on GateScheme.Sound."
  },
  {
   "property": "C51",
   "status": "partial",
   "theorems": [
    "Homfa.C51_agree_partial",
    "Homfa.C51_test_btt",
    "Homfa.C51_violated",
    "Homfa.C51_single_fails",
    "Homfa.C51_exact"
   ],
   "note": "The claim as listed is false of the code: C51_violated gives a BTT on which the encrypted runner throws at the second input for every backend. C51_agree_partial proves agreement for every BTT in the class Fit and every history within the counter range; C51_test_btt proves it for every input history of the BTT of the repository's test. C51_single_fails: any table, any backend, the encrypted runner fails on every history that goes on after one state only is possible that is not 0 (and 0 is not possible an even number of transitions later within the next input). C51_exact: for tables without counters the runners agree on all histories if and only if a single possible state is always state 0. Missing: nothing that holds; BTTs outside Fit (effects on condition edges, double increments, single live state other than 0) are excluded because the runners differ there. Rests on GateScheme.Sound."
  },
  {
   "property": "C52",
   "status": "proved",
   "theorems": [
    "Homfa.C52_att_meaning",
    "Homfa.C52_bad_att_rejected"
   ],
   "note": "Exact out_of_range condition included."
  },
  {
   "property": "C53",
   "status": "proved",
   "theorems": [
    "Homfa.C53_bench_reversed",
    "Homfa.C53_bench_block",
    "Homfa.C53_bench_flut",
    "Homfa.C53_bench_offline",
    "Homfa.C53_bench_offline_empty_wrong"
   ],
   "note": "the offline benchmark agrees on non-empty inputs; its wrong answer on the empty input is proved (C53_bench_offline_empty_wrong)"
  },
  {
   "property": "C54",
   "status": "proved",
   "theorems": [
    "Homfa.C54_ltl2spec"
   ],
   "note": "Composes C41/C43 with dump and from_istream (graphs up to 2^31 states)."
  },
  {
   "property": "C55",
   "status": "proved",
   "theorems": [
    "Homfa.C55_ltl_refuses"
   ],
   "note": "Any returned graph had only known propositions and no false condition; example shows the out_of_range."
  },
  {
   "property": "C56",
   "status": "proved",
   "theorems": [
    "Homfa.C56_att2spec",
    "Homfa.C56_spec2att"
   ],
   "note": "composes the AT&T reader/writer theorems at the command level; carries the state-0 restriction of C15 explicitly"
  },
  {
   "property": "C57",
   "status": "proved",
   "theorems": [
    "Homfa.C57_spec2dot"
   ],
   "note": "DOT text characterised by a separate statement grammar (Spec/Dot)"
  },
  {
   "property": "C58",
   "status": "proved",
   "theorems": [
    "Homfa.Cli.C58_runs",
    "Homfa.Cli.C58_only",
    "Homfa.Cli.C58_never_throws",
    "Homfa.Cli.C58_run_arguments",
    "Homfa.Cli.C58_bench"
   ],
   "note": "CLI11 itself is modelled by a simplified parser (long options with a separate value, one subcommand, decimal numbers); other spellings count as usage errors."
  },
  {
   "property": "C59",
   "status": "proved",
   "theorems": [
    "Homfa.C59_plain_prints",
    "Homfa.C59_bad_input",
    "Homfa.C59_bad_spec"
   ],
   "note": "C59_plain_prints: digit printed iff the NFA of the rows accepts; C59_bad_input: no verdict otherwise."
  },
  {
   "property": "C60",
   "status": "proved",
   "theorems": [
    "Homfa.C60_offline",
    "Homfa.C60_reverse",
    "Homfa.C60_block",
    "Homfa.C60_flut",
    "Homfa.C60_enc",
    "Homfa.C60_dec"
   ],
   "note": "Equality of the run commands for schemes that agree on the evaluation operations only (secret key and encryption arbitrary)."
  },
  {
   "property": "C61",
   "status": "proved",
   "theorems": [
    "Homfa.Cli.C61_offline",
    "Homfa.Cli.C61_reverse",
    "Homfa.Cli.C61_block",
    "Homfa.Cli.C61_flut"
   ],
   "note": "Script-level theorem over a file system for each of the four run commands; assumes Lib.Sound (archives read back, generated key pairs sound with noise bounds) and the input below 2^63 bytes of ciphertext."
  },
  {
   "property": "C62",
   "status": "proved",
   "theorems": [
    "Homfa.Cli.C62_calls",
    "Homfa.Cli.C62_frame",
    "Homfa.Cli.C62_enc_onto_itself",
    "Homfa.Cli.C62_interrupted"
   ],
   "note": "Frame condition per function and per command line; C62_enc_onto_itself records that enc --in x --out x loses x."
  },
  {
   "property": "C63",
   "status": "proved",
   "theorems": [
    "Homfa.C63_offline",
    "Homfa.C63_block",
    "Homfa.C63_reverse",
    "Homfa.C63_flut",
    "Homfa.C63_backstream_work",
    "Homfa.C63_block_work",
    "Homfa.C63_calls",
    "Homfa.C63_enc"
   ],
   "note": "Logical relations between the two runs (Proof/Oblivious.lean for results and files, Proof/Trace.lean for the calls of the library, whatever it answers). Running times of the library operations and the memory addresses used inside them are not modelled. The BTT runner is C102."
  },
  {
   "property": "C64",
   "status": "proved",
   "theorems": [
    "Homfa.C64_backstream",
    "Homfa.C64_block",
    "Homfa.C64_flut",
    "Homfa.C64_online1",
    "Homfa.C64_offline_decides",
    "Homfa.C64_reverse_decides",
    "Homfa.C64_block_decides",
    "Homfa.C64_flut_decides"
   ],
   "note": "Memory accesses to one element are atomic in the model; C35 shows that no element is accessed by two tasks unless both only read it. Executions of a loop that end in an error are covered as far as success is concerned: a run that fails sequentially never succeeds under a schedule and vice versa."
  },
  {
   "property": "C65",
   "status": "proved",
   "theorems": [
    "Homfa.C65_offline_ciphertext",
    "Homfa.C65_reverse_ciphertext",
    "Homfa.C65_exact_error",
    "Homfa.C65_right"
   ],
   "note": "C65_offline_ciphertext and C65_reverse_ciphertext give the ciphertext, C65_exact_error its exact error for any backend, C65_right the sufficient condition with errors that occurred. BLOCK: see C86. FLUT: see C88."
  },
  {
   "property": "C66",
   "status": "proved",
   "theorems": [
    "Homfa.Cli.C66_offline",
    "Homfa.Cli.C66_reverse",
    "Homfa.Cli.C66_block",
    "Homfa.Cli.C66_flut",
    "Homfa.Cli.C66_end_is_a_moment",
    "Homfa.Cli.C66_enc_unnoticed",
    "Homfa.Cli.C66_uninterrupted"
   ],
   "note": "Crash model: bytes reach a file in order, opening an output empties it, a crash leaves a prefix (Model/Crash.lean). Assumes Lib.Sound and Lib.RejectsTruncated (cereal refuses an archive whose end is missing). C66_enc_unnoticed proves the exception; C66_end_is_a_moment and C66_uninterrupted tie the crash semantics to the normal one."
  },
  {
   "property": "C67",
   "status": "proved",
   "theorems": [
    "Homfa.Cli.C67_prints",
    "Homfa.Cli.C67_plain",
    "Homfa.Cli.C67_offline",
    "Homfa.Cli.C67_reverse",
    "Homfa.Cli.C67_block",
    "Homfa.Cli.C67_flut"
   ],
   "note": "Assumes MonitorFor (Spot's monitor reads exactly the beginnings of satisfying behaviours) and Lib.Sound. The formula's text is related to the Formula only through the monitor Spot returns. C67_prints: ltl2spec always prints one text; C67_plain and C67_offline/_reverse/_block/_flut: the verdict. Example: G(p0 -> X p1) on every input of two records."
  },
  {
   "property": "C68",
   "status": "proved",
   "theorems": [
    "Homfa.Cli.C68_offline",
    "Homfa.Cli.C68_offline_restart",
    "Homfa.Cli.C68_reverse",
    "Homfa.Cli.C68_reverse_restart",
    "Homfa.Cli.C68_block",
    "Homfa.Cli.C68_block_restart",
    "Homfa.Cli.C68_flut",
    "Homfa.Cli.C68_flut_restart"
   ],
   "note": "Assumes Lib.Sound only: neither fresh output files nor Lib.RejectsTruncated. Existence of such runs follows from C61 and C66_uninterrupted; the example gives one."
  },
  {
   "property": "C69",
   "status": "proved",
   "theorems": [
    "Homfa.C69_sound_iff",
    "Homfa.C69_same_program",
    "Homfa.C69_own_calls",
    "Homfa.C69_offline",
    "Homfa.C69_reverse",
    "Homfa.C69_block",
    "Homfa.C69_flut",
    "Homfa.C69_reverse_outputs",
    "Homfa.C69_flut_outputs"
   ],
   "note": "C69_same_program ties the programs whose calls are listed to the commands of C36-C40; C69_sound_iff ties the bounds per call to Scheme.Sound. The loops are traced in the sequential order; C22 and C64 cover other orders. Enc is assumed functional and inhabited (SensibleEnc)."
  },
  {
   "property": "C70",
   "status": "proved",
   "theorems": [
    "Homfa.Cli.C70_bad_source",
    "Homfa.Cli.C70_message",
    "Homfa.Cli.C70_enc_cut"
   ],
   "note": "C70_enc_cut proves the exception for enc. What an interrupted converter has printed is left open by the model; the converters change no file."
  },
  {
   "property": "C71",
   "status": "proved",
   "theorems": [
    "Homfa.C71_backstream_timer",
    "Homfa.C71_block_timer",
    "Homfa.C71_offline_total",
    "Homfa.C71_reverse_total",
    "Homfa.C71_block_work",
    "Homfa.C71_flut_work"
   ],
   "note": "Kinds of the library calls of successful runs (Proof/Count.lean), tied to the commands by C69_same_program. C71_block_work and C71_flut_work are about one evaluated block; the timers are those of the model, whose entries hold the number of elements of the timed loop as in timeit.hpp. Times are not modelled."
  },
  {
   "property": "C72",
   "status": "proved",
   "theorems": [
    "Homfa.C72_oracle",
    "Homfa.C72_agree",
    "Homfa.C72_test_passes",
    "Homfa.C72_test_undefined"
   ],
   "note": "Oracle, six automata and the whole test body; undefined above 32 propositions. ltl_to_monitor (Spot) is the boundary; the test sources declare it with a third argument that graph.cpp does not define."
  },
  {
   "property": "C73",
   "status": "proved",
   "theorems": [
    "Homfa.C73_idempotent",
    "Homfa.C73_canonical",
    "Homfa.C73_reversed_minimal",
    "Homfa.C73_double_reversal",
    "Homfa.C73_spec2spec"
   ],
   "note": "Idempotence as equality of graphs and of printed text; canonicity as an explicit renaming; Brzozowski reversal."
  },
  {
   "property": "C74",
   "status": "proved",
   "theorems": [
    "Homfa.Cli.C74_offline",
    "Homfa.Cli.C74_reverse",
    "Homfa.Cli.C74_block",
    "Homfa.Cli.C74_flut",
    "Homfa.Cli.C74_normal_end",
    "Homfa.Cli.C74_without_failures",
    "Homfa.Cli.C74_script_without_failures",
    "Homfa.Cli.C74_genkey",
    "Homfa.Cli.C74_unnoticed",
    "Homfa.Cli.C74_large_buffer"
   ],
   "note": "C74_offline/_reverse/_block/_flut: any combination of write failures in the command sequence, verdict right or nothing printed. C74_normal_end: what a normally ending command leaves. C74_without_failures/_script_without_failures: the model contains the runs without failures. C74_genkey: exact set of files genkey can leave. C74_unnoticed, C74_large_buffer: failures at close are unnoticed; the bound on the buffer is sharp."
  },
  {
   "property": "C75",
   "status": "proved",
   "theorems": [
    "Homfa.C75_cut_spec",
    "Homfa.C75_cut_spec_first",
    "Homfa.C75_converters",
    "Homfa.Cli.C75_run_plain",
    "Homfa.Cli.C75_offline",
    "Homfa.Cli.C75_reverse",
    "Homfa.Cli.C75_block",
    "Homfa.Cli.C75_flut",
    "Homfa.C75_cut_in_number_wrong",
    "Homfa.C75_cut_before_initial_wrong"
   ],
   "note": "C75_cut_spec: the text level, any cut. C75_cut_spec_first: initial state printed first, at most ten states. C75_converters: ltl2spec and att2spec. C75_run_plain, C75_offline/_reverse/_block/_flut: command lines. C75_cut_in_number_wrong, C75_cut_before_initial_wrong: both exceptions occur."
  },
  {
   "property": "C76",
   "status": "proved",
   "theorems": [
    "Homfa.Cli.C76_any_name",
    "Homfa.Cli.C76_offline",
    "Homfa.Cli.C76_reverse",
    "Homfa.Cli.C76_block",
    "Homfa.Cli.C76_flut",
    "Homfa.Cli.C76_over_input_offline",
    "Homfa.Cli.C76_over_input_reverse",
    "Homfa.Cli.C76_over_input_flut"
   ],
   "note": "Changing the word given for --out changes only where the content goes, for all commands that write and all ways they can end; the README sequence with shared names; the sequence with enc over its input is exact: it prints the verdict on the empty input. Not included: files that are the same under different names (links)."
  },
  {
   "property": "C77",
   "status": "proved",
   "theorems": [
    "Homfa.Cli.C77_plain",
    "Homfa.Cli.C77_offline",
    "Homfa.Cli.C77_reversed",
    "Homfa.Cli.C77_qtrlwe2",
    "Homfa.Cli.C77_bbs",
    "Homfa.Cli.C77_incomplete",
    "Homfa.Cli.C77_sanitize",
    "Homfa.Cli.C77_time"
   ],
   "note": "All five methods, whole output in order; the order of the totals is left open, as it is in the code (unordered map). Durations are values of which only the kind is modelled; C77_time says how the date is shown (the month is one too small). The counts of the totals are modulo 2^64, as the code's counters are. The benchmark program does not redirect spdlog to standard error as homfa does, so its log messages are part of the output: SkipsIn (the lines of the spec that describe no state), bootNote, flutNotes. Failing runs: incomplete input and --sanitize-result."
  },
  {
   "property": "C78",
   "status": "proved",
   "theorems": [
    "Homfa.C78_offline",
    "Homfa.C78_reverse",
    "Homfa.C78_block",
    "Homfa.C78_flut"
   ],
   "note": "C78_offline, C78_reverse, C78_block, C78_flut: chance of not printing the plain verdict <= bits * eps_enc + sum over the (secret-independent) list of calls; union bound on top of C69 and C63. Rates are hypotheses. Example with a library broken for one key in a hundred."
  },
  {
   "property": "C79",
   "status": "proved",
   "theorems": [
    "Homfa.C79_offline",
    "Homfa.C79_reverse",
    "Homfa.C79_block",
    "Homfa.C79_flut",
    "Homfa.C79_offline_chance",
    "Homfa.C79_reverse_chance",
    "Homfa.C79_block_chance",
    "Homfa.C79_flut_chance"
   ],
   "note": "C79_offline, C79_reverse, C79_block, C79_flut (exact list of calls of successful runs; FLUT with an output file, queue size 1..30), C79_*_chance (C78 with the list explicit)."
  },
  {
   "property": "C80",
   "status": "proved",
   "theorems": [
    "Homfa.Cli.C80_run_test",
    "Homfa.Cli.C80_pass_means",
    "Homfa.Cli.C80_repo"
   ],
   "note": "the shell script with -e: a failing command stops it, a pipe has the status of its last command (so grep | tail never fails and grep alone fails without a match), diff with a process substitution compares line by line. C80_repo: the nine calls of the script with the files of the repository"
  },
  {
   "property": "C81",
   "status": "proved",
   "theorems": [
    "Homfa.Cli.C81_suite",
    "Homfa.Cli.C81_repo"
   ],
   "note": "C81_repo is the script's 46 checks and files from the preparation of the keys on; test0 and the conversion before it are in C100. Keys that do not belong together (for example _test_sk deleted and _test_bk kept) are excluded by KeysReady: the script does not notice them"
  },
  {
   "property": "C82",
   "status": "proved",
   "theorems": [
    "Homfa.Cli.C82_tapes",
    "Homfa.Cli.C82_always",
    "Homfa.Cli.C82_offline",
    "Homfa.Cli.C82_reverse",
    "Homfa.Cli.C82_block",
    "Homfa.Cli.C82_flut"
   ],
   "note": "Puts C61 and C79 together: C82_offline/reverse/block/flut bound the measure of the random tapes with which the five command lines do not print what run plain prints. C82_tapes: the runs of Script are exactly those with some tapes. No independence is assumed; archives are assumed to read back what was written."
  },
  {
   "property": "C83",
   "status": "proved",
   "theorems": [
    "Homfa.Cli.C83_stdin",
    "Homfa.Cli.C83_file",
    "Homfa.Cli.C83_missing",
    "Homfa.Cli.C83_spec2spec",
    "Homfa.Cli.C83_att"
   ],
   "note": "Command-line level: C83_stdin, C83_file, C83_missing for all four converters; C83_spec2spec and C83_att for the verdicts (texts up to 2^31 characters; the state-0 restriction of C15 is a hypothesis of C83_att)."
  },
  {
   "property": "C84",
   "status": "proved",
   "theorems": [
    "Homfa.C84_dump"
   ],
   "note": "C84_dump, from the same simulation invariant as C51 with the borrow marks added. More than 31 counters or widths above 32 are excluded because the loops then shift an int by 31 or more (see C50 for Counter::decrypt). takes_unique shows that the transition in the statement is unique. Rests on GateScheme.Sound."
  },
  {
   "property": "C85",
   "status": "proved",
   "theorems": [
    "Homfa.C85_report",
    "Homfa.C85_quiet",
    "Homfa.C85_status"
   ],
   "note": "C85_report (any backend, any schedule; invariant over interleavings of the tests with the atomic flag), C85_quiet (no false alarm, no crash, progress, for the repository's BTT with a backend within the budget; rests on GateScheme.Sound), C85_status (the finding: five tests of 10000 inputs end with a report and exit status 0). The key files main reads or writes are C87. Not modelled: the test numbers printed at the start."
  },
  {
   "property": "C86",
   "status": "proved",
   "theorems": [
    "Homfa.C86_selector_phase",
    "Homfa.C86_block_error",
    "Homfa.C86_selectors_right"
   ],
   "note": "C86_block_error: any library, any history; C86_selector_phase: the other coefficients; C86_selectors_right: what circuit bootstrapping makes of them. The table entries behind the live states are left open (the code leaves old contents there); errors off the path do not matter."
  },
  {
   "property": "C87",
   "status": "proved",
   "theorems": [
    "Homfa.Cli.C87_keys_match",
    "Homfa.Cli.C87_keys_stay",
    "Homfa.Cli.C87_stuck",
    "Homfa.Cli.C87_mismatch",
    "Homfa.Cli.C87_overwrites"
   ],
   "note": "C87_keys_match, C87_keys_stay, C87_stuck, C87_mismatch (witness for a left-over _bkey), C87_overwrites. cereal is assumed to read back what it wrote and to reject an archive whose end is missing."
  },
  {
   "property": "C88",
   "status": "proved",
   "theorems": [
    "Homfa.C88_weight_phase",
    "Homfa.C88_flut_error",
    "Homfa.C88_boot_right"
   ],
   "note": "C88_flut_error gives the ciphertext and its exact error, C88_weight_phase the weights, C88_boot_right when a bootstrapping succeeds. No assumption on the library in the first two. Spec/FlutNoise.lean."
  },
  {
   "property": "C89",
   "status": "proved",
   "theorems": [
    "Homfa.Tfhe.C89_digits_plain",
    "Homfa.Tfhe.C89_digits_signed",
    "Homfa.Tfhe.C89_tfhe_sound",
    "Homfa.Tfhe.C89_enc_sensible",
    "Homfa.Tfhe.C89_gates_sound",
    "Homfa.Tfhe.C89_offline",
    "Homfa.Tfhe.C89_reverse",
    "Homfa.Tfhe.C89_block",
    "Homfa.Tfhe.C89_flut",
    "Homfa.Tfhe.C89_test_btt",
    "Homfa.Tfhe.C89_lib",
    "Homfa.Tfhe.C89_command_line",
    "Homfa.Tfhe.C89_command_line_reverse",
    "Homfa.Tfhe.C89_command_line_block",
    "Homfa.Tfhe.C89_command_line_flut"
   ],
   "note": "C89_tfhe_sound and C89_gates_sound prove Scheme.Sound and GateScheme.Sound for TFHE as published (Spec/TfheAlg.lean); C89_offline, C89_reverse, C89_block, C89_flut, C89_test_btt, C89_lib and C89_command_line (offline) with its variants _reverse, _block and _flut draw the consequences. Simplified against TFHEpp, whose source is not in the repository: exact polynomial products instead of the floating point FFT, 32 bits on level 2. Worst-case bounds: with the noise of real parameter sets they exceed the margin, which real executions meet only with high probability (C78, C79)."
  },
  {
   "property": "C90",
   "status": "proved",
   "theorems": [
    "Homfa.C90_ends_orderly",
    "Homfa.C90_some_end",
    "Homfa.C90_flut_wide_queue",
    "Homfa.C90_flut_deep",
    "Homfa.C90_empty_spec"
   ],
   "note": "C90_ends_orderly (all libraries, words, files and schedules), C90_some_end (progress), C90_flut_wide_queue and C90_flut_deep (the conditions on the queue size and on the depth are needed, for every spec and readable files), C90_empty_spec (finding). The size conditions are Fits in Spec/Clean.lean; Spot's translation is a parameter that must itself be orderly, its result is arbitrary. What a depth option below 32 but beyond the ring does is C33. Vectors longer than max_size() throw in the model; exhaustion of the machine's memory below that is not modelled."
  },
  {
   "property": "C91",
   "status": "proved",
   "theorems": [
    "Homfa.C91_layout",
    "Homfa.C91_damage",
    "Homfa.C91_printed",
    "Homfa.C91_nothing_left",
    "Homfa.C91_crlf",
    "Homfa.C91_crlf_att",
    "Homfa.C91_converters",
    "Homfa.Cli.C91_run_plain",
    "Homfa.Cli.C91_offline",
    "Homfa.Cli.C91_reverse",
    "Homfa.Cli.C91_block",
    "Homfa.Cli.C91_flut",
    "Homfa.C91_initial_lost_wrong"
   ],
   "note": "C91_layout, C91_damage (any damage to any well-formed spec), C91_printed, C91_converters and the command lines C91_run_plain, C91_offline, C91_reverse, C91_block, C91_flut. C91_nothing_left and C91_crlf show the silent case, C91_initial_lost_wrong that initial state 0 is needed. Lines turned into other valid spec lines are not covered: nothing in the format could detect them."
  },
  {
   "property": "C92",
   "status": "proved",
   "theorems": [
    "Homfa.Cli.C92_offline",
    "Homfa.Cli.C92_reverse",
    "Homfa.Cli.C92_block",
    "Homfa.Cli.C92_flut"
   ],
   "note": "Proved for all four methods as theorems about sequences of command lines (homfa calls and cat >>). Pieces are whole records and, for run block, not empty; the total ciphertext file is below 2^63 bytes; the noise budgets are those of C61."
  },
  {
   "property": "C93",
   "status": "proved",
   "theorems": [
    "Homfa.Cli.C93_passes",
    "Homfa.Cli.C93_tables",
    "Homfa.Cli.C93_spec_language",
    "Homfa.Cli.C93_formula_language",
    "Homfa.Cli.C93_ciphertexts",
    "Homfa.Cli.C93_repo",
    "Homfa.Cli.C93_table_text",
    "Homfa.Cli.C93_comparison"
   ],
   "note": "Proved for any tables of expected texts and any files; C93_repo is the program as it is, with the monitors Spot gives for the four formulas written out as a hypothesis. Writing _test_in is assumed to succeed."
  },
  {
   "property": "C94",
   "status": "proved",
   "theorems": [
    "Homfa.Cli.C94_history",
    "Homfa.Cli.C94_dec"
   ],
   "note": "C94_history: induction over the history with an account of what each file holds (Spec/World.lean); C94_dec: the last command of any history. Example: two people, three keys, a negated spec made by redirection, ciphertexts overwritten by a result, a key overwritten after it was copied."
  },
  {
   "property": "C95",
   "status": "proved",
   "theorems": [
    "Homfa.C95_generated",
    "Homfa.C95_offline",
    "Homfa.C95_reverse",
    "Homfa.C95_block",
    "Homfa.C95_flut"
   ],
   "note": "C95_generated: the generated key never lacks a table. C95_offline, C95_reverse, C95_block, C95_flut: the exact outcome for every set of tables, from the exact list of library calls (C79). That TFHEpp looks up the tables named by its template parameters is taken from its interface."
  },
  {
   "property": "C96",
   "status": "proved",
   "theorems": [
    "Homfa.Cli.C96_alone",
    "Homfa.Cli.C96_outcomes",
    "Homfa.Cli.C96_serial",
    "Homfa.Cli.C96_together",
    "Homfa.Cli.C96_schedule",
    "Homfa.Cli.C96_history",
    "Homfa.Cli.C96_needed",
    "Homfa.Cli.C96_race",
    "Homfa.Cli.C96_shared_output"
   ],
   "note": "C96_alone: the model access by access refines and is refined by RunHomfa. C96_outcomes, C96_serial: independent commands, any interleaving, any serial order. C96_together: serial outcomes are parallel outcomes. C96_schedule, C96_history: sessions with background commands, with C94. C96_needed, C96_race: without the condition a run command may see a beginning of the ciphertexts being written and end normally. C96_shared_output: two enc with one output file may leave a mixture (example: two inputs with an even number of ones, a verdict for an odd number). Simplification: the order and the pieces in which a command reads its files are left open; a command that fails is taken to have looked at all its inputs; texts of background commands are taken in the order of the commands."
  },
  {
   "property": "C97",
   "status": "proved",
   "theorems": [
    "Homfa.Cli.C97_ends_orderly",
    "Homfa.Cli.C97_some_end",
    "Homfa.Cli.C97_qtrlwe2_stops",
    "Homfa.Cli.C97_qtrlwe2_wide_queue"
   ],
   "note": "Spec/BenchEnd.lean: BenchFits (the sizes), AlwaysStops (every run prints these lines and ends in this way). C97_ends_orderly: no run of the benchmark program reaches undefined behaviour; C97_some_end: there always is a run; C97_qtrlwe2_stops: exactly the lines printed before the tables of qtrlwe2 overflow; C97_qtrlwe2_wide_queue: the condition on the queue cannot be dropped. The examples: all five methods on two arbitrary files; a counter modulo 8 that stops at the seventh input."
  },
  {
   "property": "C98",
   "status": "proved",
   "theorems": [
    "Homfa.Cli.C98_offline",
    "Homfa.C98_block_ignored",
    "Homfa.C98_block_wrong"
   ],
   "note": "C98_offline (command line), C98_block_ignored (for all schemes at once), C98_block_wrong (the verdict). Examples with 2^31 ciphertexts and a queue of 2^31+1."
  },
  {
   "property": "C99",
   "status": "proved",
   "theorems": [
    "Homfa.C99_reverse",
    "Homfa.C99_offline",
    "Homfa.C99_block",
    "Homfa.C99_flut"
   ],
   "note": "Any history that succeeds; scratch space overwritten in each evaluation is not counted."
  },
  {
   "property": "C100",
   "status": "proved",
   "theorems": [
    "Homfa.Cli.C100_round_trip_lines",
    "Homfa.Cli.C100_script",
    "Homfa.Cli.C100_repo"
   ],
   "note": "C100_repo is the script as it stands. C100_round_trip_lines is the conversion alone. A homfa that fails inside the pipe may print anything."
  },
  {
   "property": "C101",
   "status": "proved",
   "theorems": [
    "Homfa.C101_drop_any_time",
    "Homfa.C101_load_completed"
   ],
   "note": "The destructor of ThreadPool is third-party code and is modelled by its documented behaviour: tell the thread to stop, join it; the thread ends only with an empty queue."
  },
  {
   "property": "C102",
   "status": "proved",
   "theorems": [
    "Homfa.C102_same_program",
    "Homfa.C102_btt",
    "Homfa.C102_calls",
    "Homfa.C102_which_calls",
    "Homfa.C102_test_btt"
   ],
   "note": "Calls of the parallel loops are listed in task order; the zero test is a parallel reduction over any tree that is valid for the number of bits. The exact list of calls is for runs that succeed and a queue size of at least 1; queue size 0 behaves like 1 in the code. Running times inside the library are not modelled."
  },
  {
   "property": "C103",
   "status": "proved",
   "theorems": [
    "Homfa.Cli.C103_verbose",
    "Homfa.Cli.C103_quiet",
    "Homfa.Cli.C103_lines",
    "Homfa.Cli.C103_measurements"
   ],
   "note": "Spec/Verbose.lean: WithoutDebug (only lines of level debug are left out), LogLine, KeyLine with the list of all keys. C103_verbose and C103_quiet: both directions, for any library; C103_measurements: the lines that do not begin with a bracket; C103_lines: every line of a normal run. The example: offline with --verbose, whose runs all have such messages."
  },
  {
   "property": "C104",
   "status": "proved",
   "theorems": [
    "Homfa.Cli.C104_refused",
    "Homfa.Cli.C104_nothing_computed",
    "Homfa.Cli.C104_bench",
    "Homfa.Cli.C104_ltl",
    "Homfa.Cli.C104_ltl_iff"
   ],
   "note": "C104_refused: the timed words are a usage error. C104_nothing_computed: repeating them changes no file. C104_bench: bench.sh never succeeds. C104_ltl: when bench_ltl.sh succeeds, its answers are the decryption of a result file that was there before. C104_ltl_iff: it succeeds exactly if there was one. multitime and tee are modelled as any number up to five of runs and any text appended to the log."
  },
  {
   "property": "C105",
   "status": "proved",
   "theorems": [
    "Homfa.Cli.C105_prepared",
    "Homfa.Cli.C105_bench"
   ],
   "note": "Two command lines of the modelled program have the same outcomes, for any library. The output of spec2spec is read back as the very automaton run reverse computes; C73 covers the case without --minimized. C105_bench: the same for benchmark reversed, up to the line config-spec, if no line of the spec is skipped (skipped lines are reported, and the prepared file has none)."
  },
  {
   "property": "C106",
   "status": "proved",
   "theorems": [
    "Homfa.Cli.C106_history",
    "Homfa.Cli.C106_stopped_dec",
    "Homfa.Cli.C106_nothing_stopped"
   ],
   "note": "Induction over the history with the account of C94, in which the words after --out (and the targets of file operations) of a stopped command are lost: a stopped run changes no other file (C62, C66). C106_nothing_stopped: with nothing stopped these are the sessions of C94. Example: six commands that end normally, seven stopped ones among them."
  },
  {
   "property": "C107",
   "status": "proved",
   "theorems": [
    "Homfa.Cli.C107_others",
    "Homfa.Cli.C107_stopped",
    "Homfa.Cli.C107_history",
    "Homfa.Cli.C107_nothing_stopped"
   ],
   "note": "The interleaving of independent commands, some of which stop after any of their file accesses, does what the commands do one after the other, where a stopped command may leave anything behind its --out; then the induction of C106. C107_others and C107_stopped say what each command leaves. C107_nothing_stopped: the schedules of C96 are covered. Example: four groups of commands at the same time, each with one that is stopped."
  },
  {
   "property": "C108",
   "status": "proved",
   "theorems": [
    "Homfa.C108_offline_bound",
    "Homfa.C108_reverse_bound",
    "Homfa.C108_gap",
    "Homfa.C108_gap_reversed",
    "Homfa.C108_ends"
   ],
   "note": "C108_offline_bound and C108_reverse_bound for all specs; C108_gap and C108_gap_reversed give the families of specs; C108_ends shows that the runs that are counted end normally, with every library. The gates are those of C71."
  },
  {
   "property": "C109",
   "status": "proved",
   "theorems": [
    "Homfa.Cli.C109_history",
    "Homfa.Cli.C109_verdict",
    "Homfa.Cli.C109_stopped",
    "Homfa.Cli.C109_without_failures"
   ],
   "note": "Invariant: every file is as the account says, except that keys, evaluation keys, ciphertexts and results may lack up to a buffer at their end. A command that ends normally has read whole files, so the step of C94 applies to the account of the whole files. C109_stopped shows that the assumption about commands that do not end normally (any content in the files named as output) covers all stopped commands; C109_without_failures shows that every such history has a session. Appending and redirection are left out, as said in the property."
  },
  {
   "property": "C110",
   "status": "proved",
   "theorems": [
    "Homfa.C110_offline",
    "Homfa.C110_each",
    "Homfa.C110_reverse",
    "Homfa.C110_block_tells_apart",
    "Homfa.Cli.C110_offline_same",
    "Homfa.Cli.C110_reverse_same"
   ],
   "note": "Decision trees in Spec/Tree.lean; offline and reverse for every library and all ciphertexts, as functions and as command lines; a witness that block differs. Time and logs of the server are not results and do depend on the spec."
  },
  {
   "property": "C111",
   "status": "proved",
   "theorems": [
    "Homfa.Cli.C111_unique",
    "Homfa.Cli.C111_no_draw",
    "Homfa.Cli.C111_named",
    "Homfa.Cli.C111_repeat",
    "Homfa.Cli.C111_again",
    "Homfa.Cli.C111_onto_input"
   ],
   "note": "C111_unique: with the tape of random numbers given there is exactly one outcome. C111_no_draw: no tape is needed for any other command word. C111_named: only the files named on the line matter. C111_repeat, C111_again: the former content of the output file does not matter and a second run changes nothing, if the output file is named once. C111_onto_input: that condition cannot be dropped. The evaluation functions of the library are functions of their arguments in the model (section 3 of DESIGN.md)."
  },
  {
   "property": "C112",
   "status": "proved",
   "theorems": [
    "Homfa.Cli.C112_enc",
    "Homfa.Cli.C112_offline",
    "Homfa.Cli.C112_reverse",
    "Homfa.Cli.C112_block",
    "Homfa.Cli.C112_flut"
   ],
   "note": "C112_enc: any arrangement is an output enc --ap 1 may give, with some random numbers. C112_offline, C112_reverse, C112_block, C112_flut: run and dec on it print what run plain --ap 1 prints for the bits so arranged; sizes and noise budgets as in C61. The example shows a verdict turned from 1 to 0 by exchanging two ciphertexts."
  },
  {
   "property": "C113",
   "status": "proved",
   "theorems": [
    "Homfa.C113_justified",
    "Homfa.C113_reverse",
    "Homfa.C113_block",
    "Homfa.C113_flut",
    "Homfa.C113_mid_step",
    "Homfa.C113_taken_back_wrong",
    "Homfa.Cli.C113_plain",
    "Homfa.Cli.C113_violated"
   ],
   "note": "C113_justified: with the flag, accepted = empty or the beginning of a satisfying behaviour (MonitorFor: what Spot guarantees of the monitor). C113_reverse, C113_block, C113_flut: in any history no 0 is followed by a 1, with the flag or between time steps. C113_mid_step: without the flag every recording that ends inside a step is rejected; C113_taken_back_wrong is a history 0, 1 of the REVERSE runner. C113_plain: the command line, for any monitor; C113_violated: the same for the verdicts C67 speaks of."
  },
  {
   "property": "C114",
   "status": "proved",
   "theorems": [
    "Homfa.C114_same_words",
    "Homfa.C114_eventually",
    "Homfa.Cli.C114_plain",
    "Homfa.Cli.C114_offline",
    "Homfa.Cli.C114_reverse",
    "Homfa.Cli.C114_no_alarm"
   ],
   "note": "Words (C114_same_words), run plain (C114_plain), run offline and run reverse byte for byte (C114_offline, C114_reverse), F psi (C114_eventually, C114_no_alarm). The example uses two formulas that are not equivalent but have the same beginnings, with two different monitors and specifications. Not claimed for run block and run flut, whose noise depends on the states (C110)."
  },
  {
   "property": "C115",
   "status": "proved",
   "theorems": [
    "Homfa.C115_spec2spec",
    "Homfa.C115_twice",
    "Homfa.C115_ltl",
    "Homfa.C115_att",
    "Homfa.C115_minimized_alone",
    "Homfa.Cli.C115_files",
    "Homfa.Cli.C115_formulas"
   ],
   "note": "Both directions; the only-if direction for texts of at most 2^31 characters. C115_minimized_alone is the witness for the last sentence."
  },
  {
   "property": "C116",
   "status": "proved",
   "theorems": [
    "Homfa.C116_att",
    "Homfa.C116_ltl",
    "Homfa.C116_reversed",
    "Homfa.C116_other",
    "Homfa.Cli.C116_ltl2spec",
    "Homfa.Cli.C116_att2spec",
    "Homfa.Cli.C116_spec2spec"
   ],
   "note": "For texts of at most 2^31 characters. C116_other is the witness for the last sentence."
  },
  {
   "property": "C117",
   "status": "proved",
   "theorems": [
    "Homfa.C117_drawing",
    "Homfa.C117_same_picture",
    "Homfa.C117_formula",
    "Homfa.C117_formulas",
    "Homfa.Cli.C117_pipeline"
   ],
   "note": "DotAccepts is a reading of the drawing along its arrows; texts are assumed to fit an int (2^31 characters). Spot's translation enters through MonitorFor, as in C67."
  },
  {
   "property": "C118",
   "status": "proved",
   "theorems": [
    "Homfa.Cli.C118_transparent",
    "Homfa.Cli.C118_quiet",
    "Homfa.Cli.C118_verbose",
    "Homfa.Cli.C118_private",
    "Homfa.Cli.C118_client",
    "Homfa.Cli.C118_offline",
    "Homfa.Cli.C118_reverse",
    "Homfa.Cli.C118_flut",
    "Homfa.Cli.C118_block",
    "Homfa.Cli.C118_verdict"
   ],
   "note": "Runs that end normally. The debug messages of ltl2spec --verbose are left open (any messages of level debug); times are not modelled; standard error is not a terminal (spdlog would colour the level)."
  },
  {
   "property": "C119",
   "status": "proved",
   "theorems": [
    "Homfa.C119_runners_right",
    "Homfa.C119_verdict",
    "Homfa.C119_passes",
    "Homfa.C119_false_alarm"
   ],
   "note": "Modelled from the text of the test (it does not compile at this commit). Finding: the test shuffles the input bits of the automaton but not those of the oracle; it therefore rejects right runners for the formula p1 (C119_false_alarm), and C119_verdict says exactly when it does."
  },
  {
   "property": "C120",
   "status": "proved",
   "theorems": [
    "Homfa.C120_drawing",
    "Homfa.C120_one_reading",
    "Homfa.C120_words",
    "Homfa.C120_formula"
   ],
   "note": "The function is not called anywhere in the repository; a developer calls it while debugging."
  },
  {
   "property": "C121",
   "status": "proved",
   "theorems": [
    "Homfa.C121_read",
    "Homfa.C121_fault",
    "Homfa.C121_blames",
    "Homfa.C121_locate",
    "Homfa.C121_att"
   ],
   "note": "Messages of the project's own logging; what the C++ runtime prints about uncaught exceptions and failed assertions is not modelled."
  },
  {
   "property": "C122",
   "status": "proved",
   "theorems": [
    "Homfa.Cli.C122_true",
    "Homfa.Cli.C122_never",
    "Homfa.Cli.C122_loud",
    "Homfa.Cli.C122_deep",
    "Homfa.Cli.C122_speaks",
    "Homfa.Cli.C122_same"
   ],
   "note": "C122_true: every run logs nothing fatal, or one complaint that holds; C122_deep: tables deep enough for the number of states never lead to the complaint about them; C122_never: three messages of the source are dead; C122_speaks: bad keys, results and faulty specifications are always reported; C122_loud: error_die is reached exactly if an error is logged (assuming that Spot does not reach it); C122_same: the runs considered are those of C58-C63's model, with the same files and output when they end normally. How much of the input is read before a run gives up is left open. For run block and run flut the order of reading specification and key differs from Model/Shell.lean (this model has the order of the code), so only normal ends are compared."
  },
  {
   "property": "C123",
   "status": "proved",
   "theorems": [
    "Homfa.C123_fewest_live",
    "Homfa.C123_limits",
    "Homfa.Cli.C123_block",
    "Homfa.Cli.C123_flut"
   ],
   "note": "C123_fewest_live and C123_limits are about all automata for the same words; C123_block and C123_flut are the command-line forms for the two methods with limits on live states (offline minimises on its own, reverse minimises the reversed automaton, and neither has such a limit)."
  },
  {
   "property": "C124",
   "status": "proved",
   "theorems": [
    "Homfa.C124_offline_least",
    "Homfa.C124_offline_same",
    "Homfa.C124_reverse_least",
    "Homfa.C124_reverse_same"
   ],
   "note": "C124_offline_least and C124_reverse_least compare with every automaton for the same (reversed) words; C124_offline_same and C124_reverse_same compare two specifications. Runs with --sanitize-result are not counted, as in C71."
  }
 ]
}