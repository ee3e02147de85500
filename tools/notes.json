{
"C01": {
"note": "Hypothesis: the initial set is a std::set and no run leaves the table (C02 shows the other case throws).",
"status": "proved"
},
"C02": {
"note": "Termination, exact failure condition and shape of the result.",
"status": "proved"
},
"C03": {
"note": "For every well-formed graph; every factory yields well-formed graphs (C17).",
"status": "proved"
},
"C04": {
"note": "removed_unreachable + table filling + union-find + regrouping, all modelled.",
"status": "proved"
},
"C05": {
"note": "Minimality against every DFA over Fin n, plus reachability and pairwise distinguishability.",
"status": "proved"
},
"C06": {
"note": "",
"status": "proved"
},
"C07": {
"note": "Includes the quotient characterization.",
"status": "proved"
},
"C08": {
"note": "Arbitrary histories of unite/find calls.",
"status": "proved"
},
"C09": {
"note": "Complement and involution.",
"status": "proved"
},
"C10": {
"note": "",
"status": "proved"
},
"C100": {
"note": "C100_repo is the script as it stands. C100_round_trip_lines is the conversion alone. A homfa that fails inside the pipe may print anything.",
"status": "proved"
},
"C101": {
"note": "The destructor of ThreadPool is third-party code and is modelled by its documented behaviour: tell the thread to stop, join it; the thread ends only with an empty queue.",
"status": "proved"
},
"C102": {
"note": "Calls of the parallel loops are listed in task order; the zero test is a parallel reduction over any tree that is valid for the number of bits. The exact list of calls is for runs that succeed and a queue size of at least 1; queue size 0 behaves like 1 in the code. Running times inside the library are not modelled.",
"status": "proved"
},
"C103": {
"note": "Spec/Verbose.lean: WithoutDebug (only lines of level debug are left out), LogLine, KeyLine with the list of all keys. C103_verbose and C103_quiet: both directions, for any library; C103_measurements: the lines that do not begin with a bracket; C103_lines: every line of a normal run. The example: offline with --verbose, whose runs all have such messages.",
"status": "proved"
},
"C104": {
"note": "C104_refused: the timed words are a usage error. C104_nothing_computed: repeating them changes no file. C104_bench: bench.sh never succeeds. C104_ltl: when bench_ltl.sh succeeds, its answers are the decryption of a result file that was there before. C104_ltl_iff: it succeeds exactly if there was one. multitime and tee are modelled as any number up to five of runs and any text appended to the log.",
"status": "proved"
},
"C105": {
"note": "Two command lines of the modelled program have the same outcomes, for any library. The output of spec2spec is read back as the very automaton run reverse computes; C73 covers the case without --minimized. C105_bench: the same for benchmark reversed, up to the line config-spec, if no line of the spec is skipped (skipped lines are reported, and the prepared file has none).",
"status": "proved"
},
"C106": {
"note": "Induction over the history with the account of C94, in which the words after --out (and the targets of file operations) of a stopped command are lost: a stopped run changes no other file (C62, C66). C106_nothing_stopped: with nothing stopped these are the sessions of C94. Example: six commands that end normally, seven stopped ones among them.",
"status": "proved"
},
"C107": {
"note": "The interleaving of independent commands, some of which stop after any of their file accesses, does what the commands do one after the other, where a stopped command may leave anything behind its --out; then the induction of C106. C107_others and C107_stopped say what each command leaves. C107_nothing_stopped: the schedules of C96 are covered. Example: four groups of commands at the same time, each with one that is stopped.",
"status": "proved"
},
"C108": {
"note": "C108_offline_bound and C108_reverse_bound for all specs; C108_gap and C108_gap_reversed give the families of specs; C108_ends shows that the runs that are counted end normally, with every library. The gates are those of C71.",
"status": "proved"
},
"C109": {
"note": "Invariant: every file is as the account says, except that keys, evaluation keys, ciphertexts and results may lack up to a buffer at their end. A command that ends normally has read whole files, so the step of C94 applies to the account of the whole files. C109_stopped shows that the assumption about commands that do not end normally (any content in the files named as output) covers all stopped commands; C109_without_failures shows that every such history has a session. Appending and redirection are left out, as said in the property.",
"status": "proved"
},
"C11": {
"note": "",
"status": "proved"
},
"C110": {
"note": "Decision trees in Spec/Tree.lean; offline and reverse for every library and all ciphertexts, as functions and as command lines; a witness that block differs. Time and logs of the server are not results and do depend on the spec.",
"status": "proved"
},
"C111": {
"note": "C111_unique: with the tape of random numbers given there is exactly one outcome. C111_no_draw: no tape is needed for any other command word. C111_named: only the files named on the line matter. C111_repeat, C111_again: the former content of the output file does not matter and a second run changes nothing, if the output file is named once. C111_onto_input: that condition cannot be dropped. The evaluation functions of the library are functions of their arguments in the model (section 3 of DESIGN.md).",
"status": "proved"
},
"C112": {
"note": "C112_enc: any arrangement is an output enc --ap 1 may give, with some random numbers. C112_offline, C112_reverse, C112_block, C112_flut: run and dec on it print what run plain --ap 1 prints for the bits so arranged; sizes and noise budgets as in C61. The example shows a verdict turned from 1 to 0 by exchanging two ciphertexts.",
"status": "proved"
},
"C113": {
"note": "C113_justified: with the flag, accepted = empty or the beginning of a satisfying behaviour (MonitorFor: what Spot guarantees of the monitor). C113_reverse, C113_block, C113_flut: in any history no 0 is followed by a 1, with the flag or between time steps. C113_mid_step: without the flag every recording that ends inside a step is rejected; C113_taken_back_wrong is a history 0, 1 of the REVERSE runner. C113_plain: the command line, for any monitor; C113_violated: the same for the verdicts C67 speaks of.",
"status": "proved"
},
"C114": {
"note": "Words (C114_same_words), run plain (C114_plain), run offline and run reverse byte for byte (C114_offline, C114_reverse), F psi (C114_eventually, C114_no_alarm). The example uses two formulas that are not equivalent but have the same beginnings, with two different monitors and specifications. Not claimed for run block and run flut, whose noise depends on the states (C110).",
"status": "proved"
},
"C115": {
"note": "Both directions; the only-if direction for texts of at most 2^31 characters. C115_minimized_alone is the witness for the last sentence.",
"status": "proved"
},
"C116": {
"note": "For texts of at most 2^31 characters. C116_other is the witness for the last sentence.",
"status": "proved"
},
"C117": {
"note": "DotAccepts is a reading of the drawing along its arrows; texts are assumed to fit an int (2^31 characters). Spot's translation enters through MonitorFor, as in C67.",
"status": "proved"
},
"C118": {
"note": "Runs that end normally. The debug messages of ltl2spec --verbose are left open (any messages of level debug); times are not modelled; standard error is not a terminal (spdlog would colour the level).",
"status": "proved"
},
"C119": {
"note": "Modelled from the text of the test (it does not compile at this commit). Finding: the test shuffles the input bits of the automaton but not those of the oracle; it therefore rejects right runners for the formula p1 (C119_false_alarm), and C119_verdict says exactly when it does.",
"status": "proved"
},
"C12": {
"note": "",
"status": "proved"
},
"C120": {
"note": "The function is not called anywhere in the repository; a developer calls it while debugging.",
"status": "proved"
},
"C121": {
"note": "Messages of the project's own logging; what the C++ runtime prints about uncaught exceptions and failed assertions is not modelled.",
"status": "proved"
},
"C122": {
"note": "C122_true: every run logs nothing fatal, or one complaint that holds; C122_deep: tables deep enough for the number of states never lead to the complaint about them; C122_never: three messages of the source are dead; C122_speaks: bad keys, results and faulty specifications are always reported; C122_loud: error_die is reached exactly if an error is logged (assuming that Spot does not reach it); C122_same: the runs considered are those of C58-C63's model, with the same files and output when they end normally. How much of the input is read before a run gives up is left open. For run block and run flut the order of reading specification and key differs from Model/Shell.lean (this model has the order of the code), so only normal ends are compared.",
"status": "proved"
},
"C123": {
"note": "C123_fewest_live and C123_limits are about all automata for the same words; C123_block and C123_flut are the command-line forms for the two methods with limits on live states (offline minimises on its own, reverse minimises the reversed automaton, and neither has such a limit).",
"status": "proved"
},
"C124": {
"note": "C124_offline_least and C124_reverse_least compare with every automaton for the same (reversed) words; C124_offline_same and C124_reverse_same compare two specifications. Runs with --sanitize-result are not counted, as in C71.",
"status": "proved"
},
"C13": {
"note": "The claim as documented is false in the code for length >= 32; proved for <= 31, exact wrong behaviour at 32, UB above 32.",
"status": "partial"
},
"C14": {
"note": "Full equality of the parsed graph; sizes up to 2^31 (State is int).",
"status": "proved"
},
"C15": {
"note": "False in the code when the initial state is not 0 (witness proved); proved for initial state 0, and exact behaviour in general.",
"status": "partial"
},
"C16": {
"note": "Meaning, rejection, skipping and numbering, against a declarative description of spec files.",
"status": "proved"
},
"C17": {
"note": "An input without spec lines gives an empty graph, which is excluded.",
"status": "proved"
},
"C18": {
"note": "",
"status": "proved"
},
"C19": {
"note": "",
"status": "proved"
},
"C20": {
"note": "",
"status": "proved"
},
"C21": {
"note": "",
"status": "proved"
},
"C22": {
"note": "",
"status": "proved"
},
"C23": {
"note": "is_end() is shown never to hold at a block boundary, as the property says.",
"status": "proved"
},
"C24": {
"note": "threshold exact in both directions",
"status": "proved"
},
"C25": {
"note": "also the coefficient view, composition, inverse and the out-of-bounds case",
"status": "proved"
},
"C26": {
"note": "",
"status": "proved"
},
"C27": {
"note": "for every backend satisfying Scheme.Sound",
"status": "proved"
},
"C28": {
"note": "for every backend satisfying Scheme.Sound; the abort holds for arbitrary ciphertexts",
"status": "proved"
},
"C29": {
"note": "for every backend satisfying Scheme.Sound",
"status": "proved"
},
"C30": {
"note": "Any history of eval_one/result calls; budget (max 1 queue + B)*cmux + cb < 2^29, B = bits of the largest live set, B < N, B < 31.",
"status": "proved"
},
"C31": {
"note": "Error of every result bounded by (max 1 queue + B) CMUX errors for any history.",
"status": "proved"
},
"C32": {
"note": "Every history; exit exactly described; queue_size 0 throws out_of_range (C32_flut_queue0). Sizes below 2^31.",
"status": "proved"
},
"C33": {
"note": "From any runner state; std::log2 modelled by the exact ceiling logarithm. C33_flut_too_deep and C33_flut_too_deep_wrong: what happens when max_second_lut_depth exceeds log2 N, which the program does not check.",
"status": "proved"
},
"C34": {
"note": "k <= 30 (int shift).",
"status": "proved"
},
"C35": {
"note": "One theorem per parallel loop; interleavings are at the granularity of one element access.",
"status": "proved"
},
"C36": {
"note": "",
"status": "proved"
},
"C37": {
"note": "",
"status": "proved"
},
"C38": {
"note": "",
"status": "proved"
},
"C39": {
"note": "exits exactly as characterised in C32",
"status": "proved"
},
"C40": {
"note": "directory mode of the run commands (main never registers --out-dir, so it is only reachable through the functions)",
"status": "proved"
},
"C41": {
"note": "Theorem over all monitors with the guarantees of Spot (ordered, satisfiable conditions, distinct variables); Spot itself is outside the model. Includes n = 0.",
"status": "proved"
},
"C42": {
"note": "Table reversal and the two LTL constructors, both modes.",
"status": "proved"
},
"C43": {
"note": "Prefixes may be cut inside a letter.",
"status": "proved"
},
"C44": {
"note": "For every backend satisfying Scheme.Sound; the refresh interval trunc(log 8000/log n) is modelled by Nat.log.",
"status": "proved"
},
"C45": {
"note": "All six constructors.",
"status": "proved"
},
"C46": {
"note": "",
"status": "proved"
},
"C47": {
"note": "timeit recorder and CSV dump; hash order of unordered_map left unspecified, clock readings arbitrary",
"status": "proved"
},
"C48": {
"note": "OFFLINE, REVERSE and BLOCK; counts recorded by the timer, any ciphertexts.",
"status": "proved"
},
"C49": {
"note": "for every backend satisfying Scheme.Sound",
"status": "proved"
},
"C50": {
"note": "Every history of reset and decrement of an encrypted counter, with any borrow ciphertexts within the error budget; decryption and the zero test agree with arithmetic modulo 2^width for widths up to 32 (decrypt) and 64 (zero test). Rests on GateScheme.Sound.",
"status": "proved"
},
"C51": {
"note": "The claim as listed is false of the code: C51_violated gives a BTT on which the encrypted runner throws at the second input for every backend. C51_agree_partial proves agreement for every BTT in the class Fit and every history within the counter range; C51_test_btt proves it for every input history of the BTT of the repository's test. C51_single_fails: any table, any backend, the encrypted runner fails on every history that goes on after one state only is possible that is not 0 (and 0 is not possible an even number of transitions later within the next input). C51_exact: for tables without counters the runners agree on all histories if and only if a single possible state is always state 0. Missing: nothing that holds; BTTs outside Fit (effects on condition edges, double increments, single live state other than 0) are excluded because the runners differ there. Rests on GateScheme.Sound.",
"status": "partial"
},
"C52": {
"note": "Exact out_of_range condition included.",
"status": "proved"
},
"C53": {
"note": "the offline benchmark agrees on non-empty inputs; its wrong answer on the empty input is proved (C53_bench_offline_empty_wrong)",
"status": "proved"
},
"C54": {
"note": "Composes C41/C43 with dump and from_istream (graphs up to 2^31 states).",
"status": "proved"
},
"C55": {
"note": "Any returned graph had only known propositions and no false condition; example shows the out_of_range.",
"status": "proved"
},
"C56": {
"note": "composes the AT&T reader/writer theorems at the command level; carries the state-0 restriction of C15 explicitly",
"status": "proved"
},
"C57": {
"note": "DOT text characterised by a separate statement grammar (Spec/Dot)",
"status": "proved"
},
"C58": {
"note": "CLI11 itself is modelled by a simplified parser (long options with a separate value, one subcommand, decimal numbers); other spellings count as usage errors.",
"status": "proved"
},
"C59": {
"note": "C59_plain_prints: digit printed iff the NFA of the rows accepts; C59_bad_input: no verdict otherwise.",
"status": "proved"
},
"C60": {
"note": "Equality of the run commands for schemes that agree on the evaluation operations only (secret key and encryption arbitrary).",
"status": "proved"
},
"C61": {
"note": "Script-level theorem over a file system for each of the four run commands; assumes Lib.Sound (archives read back, generated key pairs sound with noise bounds) and the input below 2^63 bytes of ciphertext.",
"status": "proved"
},
"C62": {
"note": "Frame condition per function and per command line; C62_enc_onto_itself records that enc --in x --out x loses x.",
"status": "proved"
},
"C63": {
"note": "Logical relations between the two runs (Proof/Oblivious.lean for results and files, Proof/Trace.lean for the calls of the library, whatever it answers). Running times of the library operations and the memory addresses used inside them are not modelled. The BTT runner is C102.",
"status": "proved"
},
"C64": {
"note": "Memory accesses to one element are atomic in the model; C35 shows that no element is accessed by two tasks unless both only read it. Executions of a loop that end in an error are covered as far as success is concerned: a run that fails sequentially never succeeds under a schedule and vice versa.",
"status": "proved"
},
"C65": {
"note": "C65_offline_ciphertext and C65_reverse_ciphertext give the ciphertext, C65_exact_error its exact error for any backend, C65_right the sufficient condition with errors that occurred. BLOCK: see C86. FLUT: see C88.",
"status": "proved"
},
"C66": {
"note": "Crash model: bytes reach a file in order, opening an output empties it, a crash leaves a prefix (Model/Crash.lean). Assumes Lib.Sound and Lib.RejectsTruncated (cereal refuses an archive whose end is missing). C66_enc_unnoticed proves the exception; C66_end_is_a_moment and C66_uninterrupted tie the crash semantics to the normal one.",
"status": "proved"
},
"C67": {
"note": "Assumes MonitorFor (Spot's monitor reads exactly the beginnings of satisfying behaviours) and Lib.Sound. The formula's text is related to the Formula only through the monitor Spot returns. C67_prints: ltl2spec always prints one text; C67_plain and C67_offline/_reverse/_block/_flut: the verdict. Example: G(p0 -> X p1) on every input of two records.",
"status": "proved"
},
"C68": {
"note": "Assumes Lib.Sound only: neither fresh output files nor Lib.RejectsTruncated. Existence of such runs follows from C61 and C66_uninterrupted; the example gives one.",
"status": "proved"
},
"C69": {
"note": "C69_same_program ties the programs whose calls are listed to the commands of C36-C40; C69_sound_iff ties the bounds per call to Scheme.Sound. The loops are traced in the sequential order; C22 and C64 cover other orders. Enc is assumed functional and inhabited (SensibleEnc).",
"status": "proved"
},
"C70": {
"note": "C70_enc_cut proves the exception for enc. What an interrupted converter has printed is left open by the model; the converters change no file.",
"status": "proved"
},
"C71": {
"note": "Kinds of the library calls of successful runs (Proof/Count.lean), tied to the commands by C69_same_program. C71_block_work and C71_flut_work are about one evaluated block; the timers are those of the model, whose entries hold the number of elements of the timed loop as in timeit.hpp. Times are not modelled.",
"status": "proved"
},
"C72": {
"note": "Oracle, six automata and the whole test body; undefined above 32 propositions. ltl_to_monitor (Spot) is the boundary; the test sources declare it with a third argument that graph.cpp does not define.",
"status": "proved"
},
"C73": {
"note": "Idempotence as equality of graphs and of printed text; canonicity as an explicit renaming; Brzozowski reversal.",
"status": "proved"
},
"C74": {
"note": "C74_offline/_reverse/_block/_flut: any combination of write failures in the command sequence, verdict right or nothing printed. C74_normal_end: what a normally ending command leaves. C74_without_failures/_script_without_failures: the model contains the runs without failures. C74_genkey: exact set of files genkey can leave. C74_unnoticed, C74_large_buffer: failures at close are unnoticed; the bound on the buffer is sharp.",
"status": "proved"
},
"C75": {
"note": "C75_cut_spec: the text level, any cut. C75_cut_spec_first: initial state printed first, at most ten states. C75_converters: ltl2spec and att2spec. C75_run_plain, C75_offline/_reverse/_block/_flut: command lines. C75_cut_in_number_wrong, C75_cut_before_initial_wrong: both exceptions occur.",
"status": "proved"
},
"C76": {
"note": "Changing the word given for --out changes only where the content goes, for all commands that write and all ways they can end; the README sequence with shared names; the sequence with enc over its input is exact: it prints the verdict on the empty input. Not included: files that are the same under different names (links).",
"status": "proved"
},
"C77": {
"note": "All five methods, whole output in order; the order of the totals is left open, as it is in the code (unordered map). Durations are values of which only the kind is modelled; C77_time says how the date is shown (the month is one too small). The counts of the totals are modulo 2^64, as the code's counters are. The benchmark program does not redirect spdlog to standard error as homfa does, so its log messages are part of the output: SkipsIn (the lines of the spec that describe no state), bootNote, flutNotes. Failing runs: incomplete input and --sanitize-result.",
"status": "proved"
},
"C78": {
"note": "C78_offline, C78_reverse, C78_block, C78_flut: chance of not printing the plain verdict <= bits * eps_enc + sum over the (secret-independent) list of calls; union bound on top of C69 and C63. Rates are hypotheses. Example with a library broken for one key in a hundred.",
"status": "proved"
},
"C79": {
"note": "C79_offline, C79_reverse, C79_block, C79_flut (exact list of calls of successful runs; FLUT with an output file, queue size 1..30), C79_*_chance (C78 with the list explicit).",
"status": "proved"
},
"C80": {
"note": "the shell script with -e: a failing command stops it, a pipe has the status of its last command (so grep | tail never fails and grep alone fails without a match), diff with a process substitution compares line by line. C80_repo: the nine calls of the script with the files of the repository",
"status": "proved"
},
"C81": {
"note": "C81_repo is the script's 46 checks and files from the preparation of the keys on; test0 and the conversion before it are in C100. Keys that do not belong together (for example _test_sk deleted and _test_bk kept) are excluded by KeysReady: the script does not notice them",
"status": "proved"
},
"C82": {
"note": "Puts C61 and C79 together: C82_offline/reverse/block/flut bound the measure of the random tapes with which the five command lines do not print what run plain prints. C82_tapes: the runs of Script are exactly those with some tapes. No independence is assumed; archives are assumed to read back what was written.",
"status": "proved"
},
"C83": {
"note": "Command-line level: C83_stdin, C83_file, C83_missing for all four converters; C83_spec2spec and C83_att for the verdicts (texts up to 2^31 characters; the state-0 restriction of C15 is a hypothesis of C83_att).",
"status": "proved"
},
"C84": {
"note": "C84_dump, from the same simulation invariant as C51 with the borrow marks added. More than 31 counters or widths above 32 are excluded because the loops then shift an int by 31 or more (see C50 for Counter::decrypt). takes_unique shows that the transition in the statement is unique. Rests on GateScheme.Sound.",
"status": "proved"
},
"C85": {
"note": "C85_report (any backend, any schedule; invariant over interleavings of the tests with the atomic flag), C85_quiet (no false alarm, no crash, progress, for the repository's BTT with a backend within the budget; rests on GateScheme.Sound), C85_status (the finding: five tests of 10000 inputs end with a report and exit status 0). The key files main reads or writes are C87. Not modelled: the test numbers printed at the start.",
"status": "proved"
},
"C86": {
"note": "C86_block_error: any library, any history; C86_selector_phase: the other coefficients; C86_selectors_right: what circuit bootstrapping makes of them. The table entries behind the live states are left open (the code leaves old contents there); errors off the path do not matter.",
"status": "proved"
},
"C87": {
"note": "C87_keys_match, C87_keys_stay, C87_stuck, C87_mismatch (witness for a left-over _bkey), C87_overwrites. cereal is assumed to read back what it wrote and to reject an archive whose end is missing.",
"status": "proved"
},
"C88": {
"note": "C88_flut_error gives the ciphertext and its exact error, C88_weight_phase the weights, C88_boot_right when a bootstrapping succeeds. No assumption on the library in the first two. Spec/FlutNoise.lean.",
"status": "proved"
},
"C89": {
"note": "C89_tfhe_sound and C89_gates_sound prove Scheme.Sound and GateScheme.Sound for TFHE as published (Spec/TfheAlg.lean); C89_offline, C89_reverse, C89_block, C89_flut, C89_test_btt, C89_lib and C89_command_line (offline) with its variants _reverse, _block and _flut draw the consequences. Simplified against TFHEpp, whose source is not in the repository: exact polynomial products instead of the floating point FFT, 32 bits on level 2. Worst-case bounds: with the noise of real parameter sets they exceed the margin, which real executions meet only with high probability (C78, C79).",
"status": "proved"
},
"C90": {
"note": "C90_ends_orderly (all libraries, words, files and schedules), C90_some_end (progress), C90_flut_wide_queue and C90_flut_deep (the conditions on the queue size and on the depth are needed, for every spec and readable files), C90_empty_spec (finding). The size conditions are Fits in Spec/Clean.lean; Spot's translation is a parameter that must itself be orderly, its result is arbitrary. What a depth option below 32 but beyond the ring does is C33. Vectors longer than max_size() throw in the model; exhaustion of the machine's memory below that is not modelled.",
"status": "proved"
},
"C91": {
"note": "C91_layout, C91_damage (any damage to any well-formed spec), C91_printed, C91_converters and the command lines C91_run_plain, C91_offline, C91_reverse, C91_block, C91_flut. C91_nothing_left and C91_crlf show the silent case, C91_initial_lost_wrong that initial state 0 is needed. Lines turned into other valid spec lines are not covered: nothing in the format could detect them.",
"status": "proved"
},
"C92": {
"note": "Proved for all four methods as theorems about sequences of command lines (homfa calls and cat >>). Pieces are whole records and, for run block, not empty; the total ciphertext file is below 2^63 bytes; the noise budgets are those of C61.",
"status": "proved"
},
"C93": {
"note": "Proved for any tables of expected texts and any files; C93_repo is the program as it is, with the monitors Spot gives for the four formulas written out as a hypothesis. Writing _test_in is assumed to succeed.",
"status": "proved"
},
"C94": {
"note": "C94_history: induction over the history with an account of what each file holds (Spec/World.lean); C94_dec: the last command of any history. Example: two people, three keys, a negated spec made by redirection, ciphertexts overwritten by a result, a key overwritten after it was copied.",
"status": "proved"
},
"C95": {
"note": "C95_generated: the generated key never lacks a table. C95_offline, C95_reverse, C95_block, C95_flut: the exact outcome for every set of tables, from the exact list of library calls (C79). That TFHEpp looks up the tables named by its template parameters is taken from its interface.",
"status": "proved"
},
"C96": {
"note": "C96_alone: the model access by access refines and is refined by RunHomfa. C96_outcomes, C96_serial: independent commands, any interleaving, any serial order. C96_together: serial outcomes are parallel outcomes. C96_schedule, C96_history: sessions with background commands, with C94. C96_needed, C96_race: without the condition a run command may see a beginning of the ciphertexts being written and end normally. C96_shared_output: two enc with one output file may leave a mixture (example: two inputs with an even number of ones, a verdict for an odd number). Simplification: the order and the pieces in which a command reads its files are left open; a command that fails is taken to have looked at all its inputs; texts of background commands are taken in the order of the commands.",
"status": "proved"
},
"C97": {
"note": "Spec/BenchEnd.lean: BenchFits (the sizes), AlwaysStops (every run prints these lines and ends in this way). C97_ends_orderly: no run of the benchmark program reaches undefined behaviour; C97_some_end: there always is a run; C97_qtrlwe2_stops: exactly the lines printed before the tables of qtrlwe2 overflow; C97_qtrlwe2_wide_queue: the condition on the queue cannot be dropped. The examples: all five methods on two arbitrary files; a counter modulo 8 that stops at the seventh input.",
"status": "proved"
},
"C98": {
"note": "C98_offline (command line), C98_block_ignored (for all schemes at once), C98_block_wrong (the verdict). Examples with 2^31 ciphertexts and a queue of 2^31+1.",
"status": "proved"
},
"C99": {
"note": "Any history that succeeds; scratch space overwritten in each evaluation is not counted.",
"status": "proved"
}
}