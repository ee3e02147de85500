{"id": "C01", "title": "Determinization preserves the language", "statement": "For every NFA (initial set, final set, transition table) all of whose reachable references are in range, Graph::from_nfa returns a DFA that accepts a bit word exactly when some run of the NFA over that word leads from an initial to a final state.", "quantifier": "all NFAs (any number of states, any edges) and all finite bit words", "why_tests_cant": "Tests check a handful of spec files and sampled words; language equality ranges over infinitely many words and automata.", "anchors": ["src/graph.cpp: Graph::from_nfa"]}
{"id": "C02", "title": "Determinization terminates and its result is trim", "statement": "Graph::from_nfa always terminates; on success the DFA has at most 2^n states (n = NFA states), its initial state is 0, every state is reachable from the initial state, two words lead to the same state exactly when they lead to the same NFA subset, and it throws out_of_range exactly when some run over some word reaches a state number outside the table.", "quantifier": "all NFAs, including ones with dangling state numbers, and all words", "why_tests_cant": "Termination and the exact error condition are statements about every input; a test can only observe single runs.", "anchors": ["src/graph.cpp: Graph::from_nfa"]}
{"id": "C03", "title": "reversed() accepts exactly the reversed words", "statement": "For every graph g built by the library, g.reversed() accepts w exactly when g accepts w read backwards.", "quantifier": "all well-formed graphs, all bit words", "why_tests_cant": "Infinite word and automaton domain.", "anchors": ["src/graph.cpp: Graph::reversed", "src/graph.cpp: Graph::from_nfa"]}
{"id": "C04", "title": "minimized() preserves the language", "statement": "For every well-formed graph g and word w, g.minimized() succeeds and accepts w iff g accepts w.", "quantifier": "all well-formed graphs, all words", "why_tests_cant": "The table-filling/union-find pipeline has to be right for every transition structure; tests use five small specs.", "anchors": ["src/graph.cpp: Graph::minimized, removed_unreachable, grouped_nondistinguishable, UnionFind"]}
{"id": "C05", "title": "minimized() is minimal", "statement": "No DFA (over any finite state set) accepting the same language as g has fewer states than g.minimized(); all states of g.minimized() are reachable and pairwise distinguishable.", "quantifier": "all well-formed graphs and all competing DFAs", "why_tests_cant": "Minimality quantifies over all competing automata.", "anchors": ["src/graph.cpp: Graph::minimized, grouped_nondistinguishable"]}
{"id": "C06", "title": "removed_unreachable() keeps exactly the reachable part", "statement": "g.removed_unreachable() terminates, accepts the same words, every one of its states is reachable, and its size is the number of states of g reachable from the initial state.", "quantifier": "all well-formed graphs, all words", "why_tests_cant": "Universal over graphs and words.", "anchors": ["src/graph.cpp: Graph::removed_unreachable"]}
{"id": "C07", "title": "grouped_nondistinguishable() merges exactly equivalent states", "statement": "g.grouped_nondistinguishable() succeeds on every well-formed graph, accepts the same words, and its states are pairwise distinguishable: two different states are always separated by some word.", "quantifier": "all well-formed graphs, all pairs of states, all words", "why_tests_cant": "Indistinguishability is a statement about all words.", "anchors": ["src/graph.cpp: Graph::grouped_nondistinguishable", "src/graph.cpp: UnionFind"]}
{"id": "C08", "title": "Union-find computes the generated equivalence", "statement": "After any sequence of unite calls on a fresh UnionFind(n) with in-range arguments, find(x) = find(y) iff x and y are connected by the united pairs, size() is the number of classes, find terminates and never changes the partition.", "quantifier": "all n, all finite sequences of unite/find operations", "why_tests_cant": "Path compression mutates the structure; correctness must hold after every history.", "anchors": ["src/graph.cpp: UnionFind"]}
{"id": "C09", "title": "negated() complements the language", "statement": "g.negated() accepts w iff g does not; negating twice gives back a graph with the same size, transitions, initial and final states.", "quantifier": "all well-formed graphs, all words", "why_tests_cant": "Universal over graphs and words.", "anchors": ["src/graph.cpp: Graph::negated"]}
{"id": "C10", "title": "prev_states is the exact inverse of next_state", "statement": "For every graph, p is listed in prev_states(q,b) iff next_state(p,b)=q, each predecessor once and in increasing order.", "quantifier": "all well-formed graphs, states and bits", "why_tests_cant": "Relational statement over all graphs.", "anchors": ["src/graph.cpp: Graph::Graph, Graph::prev_states, Graph::next_state"]}
{"id": "C11", "title": "states_at_depth lists exactly the states reachable in d steps", "statement": "After reserve_states_at_depth(D), states_at_depth(d) for d < D is the strictly increasing list of the states reached from the initial state by some word of length exactly d, and it throws for d >= D; calling reserve again replaces the old table.", "quantifier": "all well-formed graphs, depths D and d, words", "why_tests_cant": "Depth is unbounded.", "anchors": ["src/graph.cpp: Graph::reserve_states_at_depth, Graph::states_at_depth"]}
{"id": "C12", "title": "track_live_states lists exactly the live states per depth", "statement": "track_live_states(L, D) returns D+1 lists; list 0 is L, list d>0 is the strictly increasing list of states reached from a state of L by a word of length d.", "quantifier": "all well-formed graphs, starting sets, depths", "why_tests_cant": "Depth and graphs unbounded.", "anchors": ["src/graph.cpp: Graph::track_live_states", "src/online_dfa.cpp: OnlineDFARunner4::eval_queued_inputs"]}
{"id": "C13", "title": "transition64 follows the low bits of its argument", "statement": "transition64(q, input, length) returns the state reached from q by reading bits 0..length-1 of input, low bit first. The code satisfies this for length <= 31 only: at length 32 the int mask 1<<31 is sign extended and reads the wrong bits, and for length > 32 the shift is undefined behaviour.", "quantifier": "all graphs, states, 64-bit inputs and lengths", "why_tests_cant": "2^64 inputs times all graphs.", "anchors": ["src/graph.cpp: Graph::transition64"]}
{"id": "C14", "title": "dump then from_istream is the identity", "statement": "Parsing the text written by dump gives back a graph with the same size, initial state, final states and transitions, for every well-formed graph whose size fits in an int.", "quantifier": "all well-formed graphs; automata of at most 2^31 states (states are numbered by ints)", "why_tests_cant": "Text round trip over all graphs (all digit lengths, all initial/final markings).", "anchors": ["src/graph.cpp: Graph::dump, Graph::from_istream"]}
{"id": "C15", "title": "AT&T export/import preserves the language", "statement": "from_att_istream(dump_att(g)) accepts the same words as g. The code satisfies this whenever the initial state of g is 0 and violates it otherwise, because the AT&T text does not record the initial state.", "quantifier": "all well-formed graphs, all words; automata of at most 2^31 states (states are numbered by ints)", "why_tests_cant": "The single existing test only counts lines of one spec.", "anchors": ["src/graph.cpp: Graph::dump_att, Graph::from_att_istream"]}
{"id": "C16", "title": "Spec parsing accepts, skips and rejects lines as documented", "statement": "from_istream ignores every line that is not a spec line wherever it occurs; a spec line whose state number is not the number of spec lines before it makes the program exit with an error; an empty item in a state list makes it exit with an error; a file without '>' marks has initial state 0.", "quantifier": "all text files", "why_tests_cant": "Arbitrary text.", "anchors": ["src/graph.cpp: Graph::from_istream"]}
{"id": "C17", "title": "Every graph the library builds is complete and in range", "statement": "Every graph returned by from_istream (non-empty), from_att_istream, from_nfa, reversed, minimized, removed_unreachable, grouped_nondistinguishable and negated is well-formed: every API query on a state in [0,size) succeeds and next_state stays in range, so no run over any word throws.", "quantifier": "all inputs of those functions, all words", "why_tests_cant": "Absence of exceptions along every word from every construction path.", "anchors": ["src/graph.cpp: Graph::Graph and all builders"]}
{"id": "C18", "title": "spec2spec flags compose as advertised", "statement": "spec2spec with flags negated/reversed/minimized prints a spec of the automaton obtained by negating first, then reversing, then minimizing: its language is { w | w (or w reversed, if reversed) in L(g) (or its complement, if negated) }, and re-parsing the output gives that automaton.", "quantifier": "all spec graphs, all 8 flag combinations, all words; automata of at most 2^31 states (states are numbered by ints)", "why_tests_cant": "Infinite languages; order of flags matters.", "anchors": ["src/main.cpp: do_spec2spec"]}
{"id": "C19", "title": "Input files are decoded bit by bit as documented", "statement": "each_input_bit on a file of k records of ceil(ap/8) bytes calls the function with, per record, bits 0..ap-1 of the record (little endian, low bit first), padding bits ignored; it aborts exactly when the file length is not a multiple of ceil(ap/8).", "quantifier": "all byte strings, all ap > 0", "why_tests_cant": "All files and all ap.", "anchors": ["src/utility.hpp: each_input_bit"]}
{"id": "C20", "title": "Ciphertext serialization round-trips", "statement": "Loading what save wrote returns the same ciphertext bit for bit, consumes exactly one block, and a sequence of saves is read back as the same sequence.", "quantifier": "all ciphertexts (all double bit patterns including NaN payloads), all sequence lengths", "why_tests_cant": "Data domain is enormous; tests use one ciphertext.", "anchors": ["src/tfhepp_util.cpp: TRGSWLvl1FFTSerializer::save, TRGSWLvl1FFTDeserializer::load"]}
{"id": "C21", "title": "Forward input stream yields every ciphertext once, in order, under every schedule", "statement": "For a file of n ciphertexts, size() is n and the i-th call of next() returns the i-th ciphertext with size() decreasing by one, however the background loading thread is scheduled; next() on an exhausted stream aborts.", "quantifier": "all files, all interleavings of the loader thread with the caller; ciphertext files smaller than 2^63 bytes (file offsets are signed 64-bit numbers)", "why_tests_cant": "Thread schedules.", "anchors": ["src/tfhepp_util.cpp: TRGSWLvl1InputStreamFromCtxtFile"]}
{"id": "C22", "title": "Reversed input stream yields the ciphertexts in reverse order under every schedule", "statement": "For a file of n ciphertexts, size() is n and successive next() calls return the ciphertexts last to first, however the loader thread is scheduled, ending with size() = 0 and the file position at the beginning.", "quantifier": "all files, all interleavings of the loader thread with the caller; ciphertext files smaller than 2^63 bytes (file offsets are signed 64-bit numbers)", "why_tests_cant": "Thread schedules.", "anchors": ["src/tfhepp_util.cpp: ReversedTRGSWLvl1InputStreamFromCtxtFile"]}
{"id": "C23", "title": "Block seek/tell arithmetic and end test", "statement": "seek(k,dir) moves by exactly k blocks also for negative k (despite unsigned multiplication), tell() returns the block index; is_beg() holds iff at block 0; is_end() should hold iff at the end of the file - the code compares with the enum constant std::ios::end, so at block-aligned positions it never holds.", "quantifier": "all stream positions and offsets; ciphertext files smaller than 2^63 bytes (file offsets are signed 64-bit numbers); offsets that are ints, ciphertexts smaller than 2^32 bytes", "why_tests_cant": "Modular arithmetic over 64 bits; is_end has no test.", "anchors": ["src/tfhepp_util.cpp: TRGSWLvl1FFTDeserializer::seek, tell, is_beg, is_end"]}
{"id": "C24", "title": "Decryption tolerates every error below 1/4", "statement": "decrypt_TLWELvl1_to_bit returns b for every ciphertext whose phase differs from b/2 by less than 1/4 (2^30), and the threshold is exact.", "quantifier": "all ciphertexts, keys and error values (2^32 phases)", "why_tests_cant": "Key and ciphertext space.", "anchors": ["src/tfhepp_util.cpp: decrypt_TLWELvl1_to_bit, phase_of_TLWELvl1"]}
{"id": "C25", "title": "Multiplication by X^k is the negacyclic rotation", "statement": "TRLWELvl1_mult_X_k computes multiplication by X^k in Z_{2^32}[X]/(X^N+1) for every k <= 2N: coefficients move up by k with a sign change on wrap, k=0 and k=2N are the identity, rotations compose additively; for k > 2N the code indexes out of bounds.", "quantifier": "all ciphertexts, all k, all N", "why_tests_cant": "Polynomials over 2^32^N.", "anchors": ["src/tfhepp_util.cpp: PolyLvl1_mult_X_k, TRLWELvl1_mult_X_k"]}
{"id": "C26", "title": "Ciphertext operations act homomorphically on phases", "statement": "The phase of a sum is the sum of phases, the phase of c*X^k is X^k times the phase, trivial ciphertexts have their plaintext as phase under every key, and extracting coefficient i of a TRLWE gives a TLWE whose phase is coefficient i of the phase.", "quantifier": "all ciphertexts, keys, k, i", "why_tests_cant": "Ciphertext and key space.", "anchors": ["src/tfhepp_util.cpp: TRLWELvl1_add, TLWELvl1_add, trivial_*, TRLWELvl1_mult_X_k, phase_of_TRLWELvl1, phase_of_TLWELvl1"]}
{"id": "C27", "title": "Bootstrapping wrappers keep the message and reset the noise", "statement": "do_SEI_IKS_GBTLWE2TRLWE_2 maps a ciphertext whose constant coefficient encodes b in {0,1/2} with error within the bootstrapping margin to one encoding the same b with the fresh bootstrapping error, regardless of the size of the incoming error; the {0,1/2}->{-1/8,1/8} and {-1/8,1/8}->{-1/8,1/8} variants do the same for their message spaces.", "quantifier": "all ciphertexts within the margin, all keys, all sound TFHE backends", "why_tests_cant": "Noise values and ciphertexts are unbounded domains; tests sample lucky noise.", "anchors": ["src/tfhepp_util.cpp: BS_TLWE_0_1o2_to_TRLWE_0_1o2, BS_TLWE_0_1o2_to_TRLWE_m1o8_1o8, do_SEI_IKS_GBTLWE2TRLWE, do_SEI_IKS_GBTLWE2TRLWE_2, do_SEI_IKS_GBTLWE2TRLWE_3"]}
{"id": "C28", "title": "OFFLINE runner decides acceptance", "statement": "OfflineDFARunner fed the encrypted bits of w last to first (input_size = |w|) produces a ciphertext that decrypts to whether the graph accepts w, for every bootstrapping frequency whose noise budget fits; feeding more than input_size bits aborts.", "quantifier": "all graphs, all words of any length, all bootstrapping frequencies within the noise budget, all sound backends; fewer than 2^31 inputs (C98)", "why_tests_cant": "Word length and graph unbounded; noise depends on history.", "anchors": ["src/offline_dfa.cpp: OfflineDFARunner", "src/backstream_dfa_runner.cpp: BackstreamDFARunner"]}
{"id": "C29", "title": "REVERSE runner decides acceptance of every prefix", "statement": "OnlineDFARunner2 fed the encrypted bits of w in order: after every prefix, result() decrypts to whether the spec accepts that prefix, with spec_reversed=false (internally reversed and minimized) and with spec_reversed=true on an automaton of the reversed language.", "quantifier": "all graphs, all words, all prefixes, all bootstrapping frequencies within budget", "why_tests_cant": "Unbounded streams.", "anchors": ["src/online_dfa.cpp: OnlineDFARunner2", "src/backstream_dfa_runner.cpp: BackstreamDFARunner"]}
{"id": "C30", "title": "BLOCK runner decides acceptance at every result() call", "statement": "For any interleaving of eval_one and result() calls on OnlineDFARunner4, every result() after at least one input decrypts to whether the graph accepts the inputs so far; result() before any input aborts.", "quantifier": "all graphs, all queue sizes, all operation histories; queue size at most 2^31 (C98); where a verdict is right, a library whose worst-case errors stay within the noise budget of the parameters; for block the states live after the same number of inputs fit into fewer than 31 and fewer than N bits", "why_tests_cant": "Operation histories: partial blocks are flushed by result() and change later block boundaries.", "anchors": ["src/online_dfa.cpp: OnlineDFARunner4"]}
{"id": "C31", "title": "BLOCK noise does not grow with the stream", "statement": "The error of every BLOCK result is at most (queue_size + bits of the number of live states) CMUX errors, independent of how many inputs were processed, without any bootstrapping of the weights.", "quantifier": "all graphs, queue sizes, histories; queue size at most 2^31 (C98); for block the states live after the same number of inputs fit into fewer than 31 and fewer than N bits", "why_tests_cant": "Needs an invariant over unbounded histories.", "anchors": ["src/online_dfa.cpp: OnlineDFARunner4::eval_queued_inputs"]}
{"id": "C32", "title": "FLUT runner decides acceptance at every result() call", "statement": "For any interleaving of eval_one and result() on OnlineDFARunner3, every result() decrypts to whether the graph accepts the inputs so far, provided the number of live states stays below 2^max_second_lut_depth <= N and the noise budget fits; otherwise it exits with an error instead of returning a wrong result.", "quantifier": "all graphs, queue sizes, LUT depths, bootstrapping frequencies within budget, all operation histories; for flut a queue and a table depth from 1 to 30, a table of at most N entries with more entries than states are live at once (C33, C97)", "why_tests_cant": "Unbounded histories and parameter space.", "anchors": ["src/online_dfa.cpp: OnlineDFARunner3"]}
{"id": "C33", "title": "FLUT packing never overlaps or wraps", "statement": "In every FLUT evaluation with 2^max_second_lut_depth <= N, first+second LUT depth equals the number of queued inputs and every packed coefficient index input2*live+idx is below N and distinct for distinct (input2, state); the number of live states guard makes the program exit otherwise. The option max_second_lut_depth is not itself checked against N: beyond it an evaluation succeeds only while every rotation stays within 2N, and it may then decrypt to the wrong answer.", "quantifier": "all live sets, input sizes and depths; where a verdict is right, a library whose worst-case errors stay within the noise budget of the parameters", "why_tests_cant": "Parameter space is unbounded.", "anchors": ["src/online_dfa.cpp: OnlineDFARunner3::eval_queued_inputs"]}
{"id": "C34", "title": "lookup_table selects the addressed entry", "statement": "lookup_table on 2^k entries and k encrypted bits leaves in entry 0 the entry whose index has those bits (first input = least significant bit), with at most k CMUX errors; it aborts unless the table has exactly 2^k entries.", "quantifier": "all k, tables and bit vectors", "why_tests_cant": "Table size unbounded.", "anchors": ["src/online_dfa.cpp: lookup_table, lookup_table_with_timer"]}
{"id": "C35", "title": "Parallel loops are schedule independent", "statement": "Every parallel loop (weight update, bootstrapping, table filling, CMUX layers, extraction) produces the same result under every interleaving of its tasks' memory accesses as the sequential loop.", "quantifier": "all thread schedules (all interleavings of all tasks), all sizes", "why_tests_cant": "Schedules cannot be enumerated by tests.", "anchors": ["src/backstream_dfa_runner.cpp: eval, bootstrap_weight", "src/online_dfa.cpp: std::for_each(par), tbb::parallel_for loops"]}
{"id": "C36", "title": "End to end: enc, run offline, dec equals run plain", "statement": "For every spec text and input file on which `run plain` prints b, `enc` followed by `run offline` and `dec` prints b, for every bootstrapping frequency within the noise budget.", "quantifier": "all spec files, input files, num_ap, encryption randomness; fewer than 2^31 inputs (C98); ciphertext files smaller than 2^63 bytes (file offsets are signed 64-bit numbers)", "why_tests_cant": "Whole pipeline over all files.", "anchors": ["src/main.cpp: do_enc, do_run_offline, do_dec, do_run_dfa_plain"]}
{"id": "C37", "title": "End to end: enc, run reverse, dec equals run plain", "statement": "Same as above for `run reverse` without --spec-reversed; with --spec-reversed the printed bit is acceptance of the reversed word by the given spec.", "quantifier": "all spec files, input files, num_ap, encryption randomness; ciphertext files smaller than 2^63 bytes (file offsets are signed 64-bit numbers); where a verdict is right, a library whose worst-case errors stay within the noise budget of the parameters", "why_tests_cant": "Whole pipeline over all files.", "anchors": ["src/main.cpp: do_enc, do_run_reverse, do_dec, do_run_dfa_plain"]}
{"id": "C38", "title": "End to end: enc, run block, dec equals run plain", "statement": "Same for `run block` on every non-empty input; on an input with no bits `run block` aborts while `run plain` prints whether the initial state is final.", "quantifier": "all spec files, input files, num_ap, queue sizes, encryption randomness; queue size at most 2^31 (C98); ciphertext files smaller than 2^63 bytes (file offsets are signed 64-bit numbers); where a verdict is right, a library whose worst-case errors stay within the noise budget of the parameters; for block the states live after the same number of inputs fit into fewer than 31 and fewer than N bits", "why_tests_cant": "Whole pipeline over all files; the empty-input case is not tested.", "anchors": ["src/main.cpp: do_enc, do_run_block, do_dec, do_run_dfa_plain"]}
{"id": "C39", "title": "End to end: enc, run flut, dec equals run plain", "statement": "Same for `run flut`: if it does not exit with an error the printed bit equals that of `run plain`.", "quantifier": "all spec files, input files, num_ap, queue sizes, LUT depths, bootstrapping frequencies; ciphertext files smaller than 2^63 bytes (file offsets are signed 64-bit numbers); for flut a queue and a table depth from 1 to 30, a table of at most N entries with more entries than states are live at once (C33, C97)", "why_tests_cant": "Whole pipeline over all files.", "anchors": ["src/main.cpp: do_enc, do_run_flut, do_dec, do_run_dfa_plain"]}
{"id": "C40", "title": "Periodic outputs are verdicts of prefixes", "statement": "The online run loops with an output directory write file k.out exactly for the multiples k of out-freq and for the total length, and each such file decrypts to the verdict on the first k bits; the benchmark loop prints a result exactly after each multiple of the output frequency, equal to the verdict of that prefix.", "quantifier": "all streams, all output frequencies; ciphertext files smaller than 2^63 bytes (file offsets are signed 64-bit numbers); where a verdict is right, a library whose worst-case errors stay within the noise budget of the parameters; for flut a queue and a table depth from 1 to 30, a table of at most N entries with more entries than states are live at once (C33, C97)", "why_tests_cant": "Unbounded streams.", "anchors": ["src/main.cpp: do_run_reverse, do_run_flut", "src/benchmark.cpp: OnlineDFA2BenchRunner::run, enc_run_dec_loop"]}
{"id": "C41", "title": "LTL monitor edges expand to exactly their satisfying bit blocks", "statement": "For every monitor automaton whose edge conditions are ordered BDDs over p0..p(n-1), n>0, the bit-level NFA built by from_ltl_formula accepts a word iff its length is a multiple of n and the monitor has a run over the word cut into n-bit letters.", "quantifier": "all monitor automata, all BDD conditions, all words", "why_tests_cant": "All formulas; the random test samples words and a fixed formula file.", "anchors": ["src/graph.cpp: Graph::ltl_to_nfa_tuple, Graph::from_ltl_formula"]}
{"id": "C42", "title": "Reversed LTL construction accepts the reversed words", "statement": "from_ltl_formula_reversed accepts w iff from_ltl_formula accepts w reversed; reversing an NFA table reverses its language.", "quantifier": "all monitors / NFAs, all words", "why_tests_cant": "Infinite languages.", "anchors": ["src/graph.cpp: Graph::from_ltl_formula_reversed, Graph::reversed_nfa_delta"]}
{"id": "C43", "title": "All-live-final LTL mode accepts exactly the prefixes", "statement": "With make_all_live_states_final the automaton accepts exactly the bit words that are prefixes (possibly cut inside a letter) of words with a monitor run.", "quantifier": "all monitors, all words including partial letters", "why_tests_cant": "Infinite languages.", "anchors": ["src/graph.cpp: Graph::ltl_to_nfa_tuple"]}
{"id": "C44", "title": "First online runner keeps one-hot weights but can never answer", "statement": "For OnlineDFARunner, after any inputs the weight of state q decodes to true iff q is the state reached (within the noise budget), but result() aborts on every call, and construction aborts for graphs with fewer than 2 or more than 8000 states.", "quantifier": "all graphs, all words", "why_tests_cant": "Universal; no test exercises this class.", "anchors": ["src/online_dfa.cpp: OnlineDFARunner"]}
{"id": "C45", "title": "Sanitization requests are refused", "statement": "Constructing any runner with sanitize_result=true exits with an error; no runner object with sanitize_result set ever exists.", "quantifier": "all runners and all other constructor arguments", "why_tests_cant": "Universal over constructor arguments.", "anchors": ["src/backstream_dfa_runner.cpp", "src/online_dfa.cpp"]}
{"id": "C46", "title": "Weight packing and text dump", "statement": "uint2weight(n) stores bit i of n in coefficient i (1/2 or 0) and 0 elsewhere, and weight2bitstring of it, stripped of blanks and newlines, is the N-digit binary string of n, low bit first, also under any coefficient error below 1/4.", "quantifier": "all 64-bit n, all N, all errors below 1/4", "why_tests_cant": "2^64 values and noise.", "anchors": ["src/tfhepp_util.cpp: uint2weight, between_25_75, dump_weight, weight2bitstring"]}
{"id": "C47", "title": "Time recorder totals", "statement": "dumpCSV reports for each kind of operation that occurred exactly one line whose count and time are the sums over all recordings since construction or the last clear.", "quantifier": "all recording histories", "why_tests_cant": "Unbounded histories.", "anchors": ["src/timeit.cpp: TimeRecorder"]}
{"id": "C48", "title": "CMUX counts match the logged cost", "statement": "The OFFLINE runner evaluates exactly sum_{j<n} |states_at_depth(j)| CMUXes on an n-bit input, the REVERSE runner exactly |Q| per input bit, and the BLOCK runner records per block exactly the sizes of the live sets at each depth plus 2^width-1 for the final selection.", "quantifier": "all graphs, inputs, queue sizes; for offline fewer than 2^31 inputs, for block a queue of at most 2^31 (C98); for block the states live after the same number of inputs fit into fewer than 31 and fewer than N bits", "why_tests_cant": "Universal over graphs and histories.", "anchors": ["src/main.cpp: do_run_offline", "src/backstream_dfa_runner.cpp: eval", "src/online_dfa.cpp: OnlineDFARunner4"]}
{"id": "C49", "title": "Homomorphic XOR without sample extraction", "statement": "HomXORwoSE on encryptions of a,b in {-1/8,1/8} with errors within the margin yields an encryption of a xor b in its constant coefficient.", "quantifier": "all ciphertexts within the margin", "why_tests_cant": "Noise and ciphertext space.", "anchors": ["src/tfhepp_util.cpp: HomXORwoSE"]}
{"id": "C50", "title": "Encrypted counters implement a countdown", "statement": "Counter::minus_one with an encrypted borrow bit subtracts that bit modulo 2^width, is_zero reports whether the counter is zero, and reset restores the initial value, for every operation history.", "quantifier": "all widths, initial values and histories; where a verdict is right, a library whose worst-case errors stay within the noise budget of the parameters", "why_tests_cant": "Unbounded widths and histories.", "anchors": ["src/counter.cpp: Counter"]}
{"id": "C51", "title": "BTT plaintext and encrypted runners agree", "statement": "BTTRunner's decrypted accept bit equals BTTPlaintextRunner's after every input when queue_size is 1. The code violates this when the only live state at the start of a block is not state 0, because the selection then reads weight 0 instead of the live state's weight.", "quantifier": "all BTTs, all input histories; where a verdict is right, a library whose worst-case errors stay within the noise budget of the parameters", "why_tests_cant": "One BTT is tested with random inputs.", "anchors": ["src/counter.cpp: BTTRunner, BTTPlaintextRunner"]}
{"id": "C52", "title": "AT&T import means what the file says", "statement": "from_att_istream on a file of edge lines and final-state lines builds an automaton accepting exactly the words labelling a path from state 0 to a listed final state; it throws out_of_range exactly when a state reachable from 0 has a larger number than every state with an outgoing edge; any other line makes the program stop.", "quantifier": "all text files, all words", "why_tests_cant": "Arbitrary text and infinite languages; final states without outgoing edges are not tested.", "anchors": ["src/graph.cpp: Graph::from_att_istream"]}
{"id": "C53", "title": "Benchmark modes agree with the plaintext benchmark", "statement": "On every spec with at least one state and every input file on which the plaintext benchmark completes, the reversed, qtrlwe2 and bbs benchmarks (unless qtrlwe2 exits with its error message) print the same sequence of results, and the offline benchmark prints the verdict on the whole input. The code violates the last part on an input without bits: the offline benchmark then prints 0 even if the spec accepts the empty word.", "quantifier": "all spec files, input files, num_ap, output frequencies, queue sizes, encryption randomness; for offline fewer than 2^31 inputs, for block a queue of at most 2^31 (C98); for block the states live after the same number of inputs fit into fewer than 31 and fewer than N bits; for flut a queue and a table depth from 1 to 30, a table of at most N entries with more entries than states are live at once (C33, C97)", "why_tests_cant": "equality of printed sequences over all inputs and parameters under encryption noise cannot be sampled exhaustively", "anchors": ["src/benchmark.cpp: do_plain, do_offline, do_reversed, do_qtrlwe2, do_bbs, enc_run_dec_loop, OfflineBenchRunner::run"]}
{"id": "C54", "title": "ltl2spec prints a specification of the formula's words", "statement": "For every monitor Spot may return, ltl2spec prints a text that, read back by any command, is an automaton accepting exactly the bit words the monitor can read (with --make-all-live-states-final, their prefixes).", "quantifier": "all monitors, all numbers of propositions, all words, both option values; automata of at most 2^31 states (states are numbered by ints)", "why_tests_cant": "Infinitely many formulas and words; needs construction and printing and parsing composed.", "anchors": ["src/main.cpp: do_ltl2spec", "src/graph.cpp: Graph::from_ltl_formula, Graph::dump, Graph::from_istream"]}
{"id": "C55", "title": "Formulas over unknown propositions are refused", "statement": "If from_ltl_formula or from_ltl_formula_reversed returns a graph, every proposition tested by a condition of the monitor is one of p0..p(n-1) and no condition is constantly false; otherwise the call fails instead of building a wrong automaton.", "quantifier": "all monitors with reduced BDD conditions, all n, both modes", "why_tests_cant": "Ranges over all formulas and all diagrams.", "anchors": ["src/graph.cpp: Graph::ltl_to_nfa_tuple"]}
{"id": "C56", "title": "att2spec and spec2att translate without changing the automaton's language", "statement": "att2spec on a well-formed AT&T text prints the spec of an automaton accepting exactly the labels of paths from state 0 to a final state, or throws out_of_range, exactly when a path from 0 reaches a state number larger than every edge source. spec2att followed by att2spec yields an automaton that accepts exactly what the original accepts from its state 0.", "quantifier": "all AT&T texts with well-formed lines and all valid spec texts, all words; automata of at most 2^31 states (states are numbered by ints)", "why_tests_cant": "Covers nondeterministic and partial automata of any size; a test picks a handful of files and words.", "anchors": ["src/main.cpp: do_att2spec, do_spec2att", "src/graph.cpp: Graph::from_att_istream, Graph::dump_att"]}
{"id": "C57", "title": "spec2dot draws exactly the automaton", "statement": "The DOT text printed by spec2dot consists of a start arrow to the initial state, one node per state with a double border iff it is final, and for each pair of states one arrow labelled with exactly the letters leading from one to the other; nothing is missing, duplicated or added.", "quantifier": "all valid spec texts", "why_tests_cant": "Every state and transition of every automaton must be drawn once; a test compares a few fixed drawings.", "anchors": ["src/main.cpp: do_spec2dot", "src/graph.cpp: Graph::dump_dot"]}
{"id": "C58", "title": "The command line runs what it says", "statement": "A command line that follows the manual runs exactly the function the manual names, with the values written on the line, wherever the items stand; every other line is a usage error or stops with a message because no command was given. No optional argument is read when absent, every frequency, queue size and number of propositions that reaches a run is positive, the output is always one file, and --out-dir and result sanitizing cannot be reached from homfa. The same holds of the benchmark program, which never reads an uninitialised variable.", "quantifier": "every list of command line words and every set of existing files", "why_tests_cant": "The lines are unbounded in number and length, items come in any order, and a mistake in one registration shows only for lines that use it.", "anchors": ["src/main.cpp: Args, register_*, main", "src/benchmark.cpp: main"]}
{"id": "C59", "title": "run plain prints 1 exactly when the specification accepts the input", "statement": "For a specification text that is well formed and an input file of whole records, 'run plain' prints exactly '1' if the automaton written in the specification (read as a nondeterministic automaton over the rows of the text) accepts the sequence of proposition bits in the file, and exactly '0' otherwise. On an input that is not a whole number of records, or on a malformed specification, it prints no verdict.", "quantifier": "all specification texts, all input files, all numbers of propositions", "why_tests_cant": "Tests compare a few automata and words; the claim ties the text of every specification and the bytes of every input to the printed digit.", "anchors": ["src/main.cpp: do_run_dfa_plain, print_result", "src/graph.cpp: Graph::from_istream", "src/utility.hpp: each_input_bit"]}
{"id": "C60", "title": "The evaluating party needs no secret key", "statement": "The ciphertexts written by 'run offline', 'run reverse', 'run block' and 'run flut' are determined by the specification, the input ciphertexts and the evaluation key; two parties with the same evaluation key but different (or no) secret keys write the same ciphertexts. 'enc' uses nothing but encryption and 'dec' nothing but the secret key.", "quantifier": "all schemes, specifications, ciphertext lists and parameters", "why_tests_cant": "It is a statement about pairs of executions with different secrets; a test fixes the secret.", "anchors": ["src/main.cpp: do_run_offline, do_run_reverse, do_run_block, do_run_flut, do_enc, do_dec"]}
{"id": "C61", "title": "The README sequence of commands prints what run plain prints", "statement": "Run as command lines on files, one after the other: genkey, genbkey, enc, one of run offline/reverse/block/flut, dec. If 'run plain' on the same specification and input prints a verdict, every execution of the sequence (any randomness, any schedule of the input stream) ends normally, prints exactly that verdict and changes no file except the four it names. Block needs a non-empty input; flut needs fewer live states than its table has entries.", "quantifier": "all specification and input files, distinct file names, randomness, schedules, frequencies, queue sizes within the noise budget; for offline fewer than 2^31 inputs, for block a queue of at most 2^31 (C98); ciphertext files smaller than 2^63 bytes (file offsets are signed 64-bit numbers); for block the states live after the same number of inputs fit into fewer than 31 and fewer than N bits; for flut a queue and a table depth from 1 to 30, a table of at most N entries with more entries than states are live at once (C33, C97)", "why_tests_cant": "The claim composes five processes over a file system for all inputs, random choices and thread schedules.", "anchors": ["src/main.cpp: main, do_genkey, do_genbkey, do_enc, do_run_offline, do_run_reverse, do_run_block, do_run_flut, do_dec", "src/archive.hpp"]}
{"id": "C62", "title": "A command changes only the file named by --out", "statement": "A command that ends normally or is stopped at any moment changes at most the file given by --out; the commands that print a text (dec, run plain, ltl2spec, spec2spec, spec2dot, spec2att, att2spec) change no file, and the commands that write a file print nothing to standard output. enc empties its output file before it reads its input, so encrypting a file onto itself succeeds and leaves an empty file.", "quantifier": "all command lines that follow the manual, all file systems, all executions", "why_tests_cant": "A frame condition quantifies over every other file and every execution.", "anchors": ["src/main.cpp: do_genkey, do_genbkey, do_enc, do_dec, do_run_offline, do_run_reverse, do_run_block, do_run_flut, do_run_dfa_plain, do_spec2spec, do_spec2dot, do_spec2att", "src/archive.hpp: write_to_archive"]}
{"id": "C63", "title": "What the server does depends on the number of ciphertexts only", "statement": "For any two backends of the same sizes and any two ciphertext lists of the same length (proper encryptions or not, under whatever keys), every run command succeeds on both or fails in the same way on both, writes the same files in the same order, and (for offline, reverse and block, which record them) performs the same numbers of homomorphic operations of each kind in the same order; the ciphertext file written by enc has a size that depends only on the number of input bytes and propositions. So nothing an onlooker sees of a run but the ciphertexts themselves depends on the encrypted input.", "quantifier": "every two backends and key sets, every two equally long lists of ciphertexts, every spec, size and option", "why_tests_cant": "Unit tests run one key and a few inputs; independence from the data is a statement about pairs of runs on all inputs.", "anchors": ["src/main.cpp: do_run_offline, do_run_reverse, do_run_flut, do_run_block, do_enc", "src/backstream_dfa_runner.cpp: eval", "src/online_dfa.cpp: eval_queued_inputs"]}
{"id": "C64", "title": "Whole runs are schedule independent", "statement": "Over any history of calls on a runner, when in every call every parallel loop is executed under an arbitrary interleaving of its own of its tasks' memory accesses, the run succeeds with given results and final state exactly if the run that executes the tasks of every loop one after the other does; so OFFLINE, REVERSE, BLOCK and FLUT decrypt to the right answers under every schedule.", "quantifier": "all histories of calls, all schedules of all loops in all calls, all graphs, sizes and ciphertexts; for offline fewer than 2^31 inputs, for block a queue of at most 2^31 (C98); where a verdict is right, a library whose worst-case errors stay within the noise budget of the parameters; for block the states live after the same number of inputs fit into fewer than 31 and fewer than N bits; for flut a queue and a table depth from 1 to 30, a table of at most N entries with more entries than states are live at once (C33, C97)", "why_tests_cant": "A thread schedule is not under the control of a test, and there are unboundedly many schedules of unboundedly many loops.", "anchors": ["src/backstream_dfa_runner.cpp: BackstreamDFARunner::eval, bootstrap_weight", "src/online_dfa.cpp: OnlineDFARunner::eval_one, lookup_table, OnlineDFARunner3::eval_queued_inputs, OnlineDFARunner4::eval_queued_inputs"]}
{"id": "C65", "title": "OFFLINE and REVERSE err only if the errors that occurred add up", "statement": "With nothing assumed about the CMUX of the library: the result ciphertext of OFFLINE and REVERSE is a fixed expression over library operations (a CMUX per letter between the weights of the two successors, refreshed at every multiple of the bootstrapping frequency), its phase is the right message plus the error of the last refreshing plus the signed sum of the errors made since by the CMUXes on the one path the word takes, and it decrypts to the right bit exactly when that sum is below 1/4. If only refreshing is assumed to work within its margin, the answer is right whenever these sums stay within the margin at each refreshing; errors of CMUXes off the path do not matter.", "quantifier": "every backend (no soundness assumed), automaton, ciphertext sequence, bit sequence and bootstrapping frequency; for offline fewer than 2^31 inputs (C98)", "why_tests_cant": "Tests run a few inputs at one parameter set where errors are far below the threshold; they cannot show which errors matter, nor the exact condition for a wrong answer.", "anchors": ["src/backstream_dfa_runner.cpp:BackstreamDFARunner::eval", "src/backstream_dfa_runner.cpp:BackstreamDFARunner::bootstrap_weight", "src/backstream_dfa_runner.cpp:BackstreamDFARunner::result", "src/offline_dfa.cpp:OfflineDFARunner", "src/online_dfa.cpp:OnlineDFARunner2"]}
{"id": "C66", "title": "Interrupted commands never lead to a wrong verdict, except that an interrupted enc shortens the input", "statement": "Run genkey, genbkey, enc, one of run offline/reverse/block/flut, and dec, in this order, in a directory without their output files, each possibly killed, crashed or aborted at any moment, the next being started anyway. Then the whole sequence prints nothing, or exactly the verdict of the spec on some prefix of the bits of the input file; and if enc ended normally, on all of them. The exception is real: enc can be stopped after any number of bits so that the commands that follow succeed and print the verdict on those bits only.", "quantifier": "every point at which every command can stop, every spec, input file (also one whose last record is cut off), key randomness, read schedule, and options within the noise budget; for offline fewer than 2^31 inputs, for block a queue of at most 2^31 (C98); ciphertext files smaller than 2^63 bytes (file offsets are signed 64-bit numbers); for block the states live after the same number of inputs fit into fewer than 31 and fewer than N bits; for flut a queue and a table depth from 1 to 30, a table of at most N entries with more entries than states are live at once (C33, C97); an archive library that refuses archives whose end is missing", "why_tests_cant": "Tests let every command finish; the states a killed process leaves behind (archives and ciphertext files cut anywhere) are unboundedly many.", "anchors": ["src/main.cpp:do_genkey", "src/main.cpp:do_genbkey", "src/main.cpp:do_enc", "src/main.cpp:do_run_offline", "src/main.cpp:do_run_reverse", "src/main.cpp:do_run_block", "src/main.cpp:do_run_flut", "src/main.cpp:do_dec", "src/archive.hpp:read_from_archive", "src/archive.hpp:write_to_archive", "src/tfhepp_util.hpp:TRGSWLvl1InputStreamFromCtxtFile"]}
{"id": "C67", "title": "From a formula to a verdict", "statement": "Write the output of 'homfa ltl2spec FORMULA N' (with or without --make-all-live-states-final) to a file, and give that file to genkey, genbkey, enc --ap N, any one of run offline / reverse / block / flut, and dec (or to run plain). ltl2spec always prints the same text and changes no file, and the sequence prints 1 if the recorded time steps are the beginning of some infinite behaviour that satisfies the formula (or there are none) and 0 if they already violate it.", "quantifier": "All formulas with a monitor over p0..p(N-1) that reads exactly the beginnings of satisfying behaviours, all N > 0, all input files of whole records (non-empty for block), all keys and randomness, all file names and contents of the other files, all schedules of the loader threads, all option values within the noise budget and parameter limits, all printed specifications of at most 2^31 characters; for offline fewer than 2^31 inputs, for block a queue of at most 2^31 (C98); ciphertext files smaller than 2^63 bytes (file offsets are signed 64-bit numbers); for block the states live after the same number of inputs fit into fewer than 31 and fewer than N bits; for flut a queue and a table depth from 1 to 30, a table of at most N entries with more entries than states are live at once (C33, C97)", "why_tests_cant": "It quantifies over all formulas, all behaviours continuing the input to infinity, all inputs and all randomness; a test checks one formula on one input.", "anchors": ["src/graph.cpp: ltl_to_monitor, Graph::from_ltl_formula, Graph::dump", "src/main.cpp: do_ltl2spec, do_genkey, do_genbkey, do_enc, do_run_offline, do_run_reverse, do_run_block, do_run_flut, do_run_dfa_plain, do_dec"]}
{"id": "C68", "title": "Commands given again after an interruption", "statement": "If each command of the sequence genkey, genbkey, enc, run, dec is given again until it ends normally, where the attempts before may have been stopped at any moment and files of the same names may have been left by earlier runs, then what is printed in total is the verdict that run plain prints, one or more times, and nothing else; no file but the four outputs changes. After any attempts at these commands, in any order and with any end, the sequence can be started again from the beginning and prints the verdict.", "quantifier": "All specifications, inputs, keys and randomness, all numbers of attempts of each command, all moments at which an attempt is stopped, all leftover contents of the output files; all four run commands; for offline fewer than 2^31 inputs, for block a queue of at most 2^31 (C98); ciphertext files smaller than 2^63 bytes (file offsets are signed 64-bit numbers); where a verdict is right, a library whose worst-case errors stay within the noise budget of the parameters; for block the states live after the same number of inputs fit into fewer than 31 and fewer than N bits; for flut a queue and a table depth from 1 to 30, a table of at most N entries with more entries than states are live at once (C33, C97)", "why_tests_cant": "The histories of attempts, the moments of interruption and the contents left behind are unbounded.", "anchors": ["src/main.cpp: do_genkey, do_genbkey, do_enc, do_run_offline, do_run_reverse, do_run_block, do_run_flut, do_dec", "src/archive.hpp: write_to_archive"]}
{"id": "C69", "title": "The verdict is right in every run whose own library calls are accurate", "statement": "Consider one run: an input is encrypted with enc, and run offline, reverse, block or flut evaluates a spec on the ciphertexts. If the encryptions made for that input are good and every TFHE operation performed in that run (CMUX, key switch, blind rotation, TLWE-to-TRLWE conversion, circuit bootstrapping) errs by no more than its bound on the arguments it is given in that run, then, within the noise budget, the run succeeds and dec prints what run plain prints; with an output directory, every prefix verdict is right. Nothing is assumed about the TFHE library on arguments that do not occur in the run.", "quantifier": "all specs, inputs, parameters, randomness and libraries, for the calls made in the run; for offline fewer than 2^31 inputs, for block a queue of at most 2^31 (C98); ciphertext files smaller than 2^63 bytes (file offsets are signed 64-bit numbers); for block the states live after the same number of inputs fit into fewer than 31 and fewer than N bits; for flut a queue and a table depth from 1 to 30, a table of at most N entries with more entries than states are live at once (C33, C97)", "why_tests_cant": "Worst-case bounds for all ciphertexts do not hold for real TFHE parameters; what a user relies on is that a run is right unless one of its own operations errs too much. A test cannot tell an accidental success from one implied by the accuracy of the operations performed.", "anchors": ["src/backstream_dfa_runner.cpp:BackstreamDFARunner::eval", "src/online_dfa.cpp:OnlineDFARunner3::eval_queued_inputs", "src/online_dfa.cpp:OnlineDFARunner4::eval_queued_inputs", "src/tfhepp_util.cpp", "src/main.cpp:do_run_offline", "src/main.cpp:do_run_reverse", "src/main.cpp:do_run_block", "src/main.cpp:do_run_flut"]}
{"id": "C70", "title": "A bad key, result or spec file never costs earlier outputs", "statement": "If a file that a homfa command line names as secret key, evaluation key, result or spec does not hold one, then no run of the command ends normally, and however and whenever it ends (by itself or killed), every file is as it was before, and no verdict or result has been printed. genbkey, enc and dec report the bad file with a message. The input of enc is an exception: if its last record is cut off, enc aborts after it has emptied its output file.", "quantifier": "all command lines that follow the usage of any homfa command, all file systems, all moments at which a run can stop", "why_tests_cant": "It is about every bad file content and every moment at which the run stops; a test tries a few contents and looks at the files at the end.", "anchors": ["src/archive.hpp:read_from_archive", "src/archive.hpp:write_to_archive", "src/graph.cpp:Graph::from_file", "src/main.cpp:do_genbkey", "src/main.cpp:do_enc", "src/main.cpp:do_dec", "src/main.cpp:do_run_offline", "src/main.cpp:do_run_reverse", "src/main.cpp:do_run_block", "src/main.cpp:do_run_flut"]}
{"id": "C71", "title": "The work of a run is what is announced and recorded", "statement": "The number announced by run offline as 'Total #CMUX' is the number of CMUX gates the run evaluates: the sum over the positions j of the input of the number of states of the minimal DFA reached by j bits. run reverse evaluates one CMUX gate per ciphertext and state of the automaton it walks, whatever output files it writes. The numbers of CMUX gates, bootstrappings and circuit bootstrappings kept in the timers of OFFLINE, REVERSE and BLOCK, which the benchmark prints, are the numbers of these operations performed. A block of BLOCK takes one CMUX gate per position and live state plus, if several states were live before it, one circuit bootstrapping per bit of the number of a state and a lookup table over these bits; a block of k ciphertexts of FLUT takes two lookup tables of depths a + b = k, one packing per live state, and a bootstrapping per live state in every boot-th block.", "quantifier": "every spec, list of ciphertexts, bootstrapping interval, output option and scheme, for runs that succeed; for block at most 2^31 inputs in a block (C98)", "why_tests_cant": "A test measures the operations of some runs; that the announced and recorded numbers agree with the calls made must hold for every automaton and input", "anchors": ["src/main.cpp:253-285", "src/timeit.hpp", "src/benchmark.cpp:359", "src/benchmark.cpp:442", "src/backstream_dfa_runner.cpp:43-92", "src/online_dfa.cpp:190-373", "src/online_dfa.cpp:412-535"]}
{"id": "C72", "title": "The random test of the automata can only pass", "statement": "For every formula (through the monitor Spot builds for it) over n propositions and every input of whole n-bit letters, the test's oracle (a walk over the sets of states of the monitor), the automaton of the formula, its minimized form and, on the input read backwards, its reversal, the reversed construction and their minimized forms all give the same answer; so the repository's random test reports no mismatch for 1 to 32 propositions, whatever the generator draws. With more than 32 propositions the test itself is undefined (it shifts the int 1 by 32 or more).", "quantifier": "all monitors with conditions over the propositions, all inputs of whole letters, all draws of the generator", "why_tests_cant": "The test draws 200 inputs per formula; the claim is about all formulas and all inputs, and about the oracle itself.", "anchors": ["src/test_plain_random.cpp:check_if_accept", "src/test_plain_random.cpp:test_from_ltl_formula", "src/graph.cpp:Graph::from_ltl_formula", "src/graph.cpp:Graph::from_ltl_formula_reversed"]}
{"id": "C73", "title": "Minimisation is canonical", "statement": "Minimizing a minimized automaton changes nothing, not even the numbers of its states, so spec2spec --minimized prints its own output unchanged. The minimized forms of two automata with the same language are the same up to renumbering the states. Reversing an automaton without unreachable states gives a minimal automaton, and reversing any automaton twice gives its minimized form up to renumbering.", "quantifier": "all automata, pairs of automata with the same language, and specs; automata of at most 2^31 states (states are numbered by ints)", "why_tests_cant": "It is about all automata and all pairs of them; equality of languages is a statement about all words.", "anchors": ["src/graph.cpp:Graph::minimized", "src/graph.cpp:Graph::removed_unreachable", "src/graph.cpp:Graph::grouped_nondistinguishable", "src/graph.cpp:Graph::reversed", "src/main.cpp:do_spec2spec"]}
{"id": "C74", "title": "Write errors never lead to a wrong verdict", "statement": "If writing fails at any point of any command of the sequence genkey, genbkey, enc, run offline (or reverse, block, flut), dec (disk full, device error), in any combination, and all commands nevertheless end with status 0, then what is printed is the verdict of 'run plain' on the same input or nothing at all; no file other than the four outputs changes. Errors met when an output file is closed are not noticed: a command may end normally although at most one buffer at the end of its output is missing (and only that); the next command then refuses the file. The bound is sharp: with an output buffer that holds a whole ciphertext, enc could lose the last bit unnoticed and the sequence would print the verdict on the shorter input.", "quantifier": "every specification, input, key, randomness, every number of bytes taken by the device at every write of every command, every size of the output buffer smaller than a ciphertext; all initial contents of the output files; for offline fewer than 2^31 inputs, for block a queue of at most 2^31 (C98); ciphertext files smaller than 2^63 bytes (file offsets are signed 64-bit numbers); for block the states live after the same number of inputs fit into fewer than 31 and fewer than N bits; for flut a queue and a table depth from 1 to 30, a table of at most N entries with more entries than states are live at once (C33, C97); an archive library that refuses archives whose end is missing", "why_tests_cant": "A test would have to inject a write error at every byte of every output of every command, and the errors at close leave no trace in the exit status.", "anchors": ["src/tfhepp_util.cpp: save_binary", "src/archive.hpp: write_to_archive", "src/main.cpp: do_enc, do_genkey, do_genbkey, do_run_offline, do_run_reverse, do_run_block, do_run_flut"]}
{"id": "C75", "title": "Specifications whose end is missing", "statement": "If a spec file printed by the program lost its end (at any byte), then every command that uses it fails, or behaves as with the complete file: run plain prints the same, and the sequence of commands of the README with any of the four run commands prints the verdict of the complete specification. There are two exceptions, both real: the cut is inside the last number of a line (possible only with more than ten states), or before the end of the line that marks the initial state when that is not the first line. The output of ltl2spec and att2spec always begins with the initial state.", "quantifier": "every automaton, every cut of its text, every input and all keys, randomness and schedules of the encrypted sequence; ciphertext files smaller than 2^63 bytes (file offsets are signed 64-bit numbers); where a verdict is right, a library whose worst-case errors stay within the noise budget of the parameters; automata of at most 2^31 states (states are numbered by ints); printed specifications of at most 2^31 characters (so that the state numbers are ints); for offline fewer than 2^31 inputs (C98); for block a queue of at most 2^31 (C98); for block the states live after the same number of inputs fit into fewer than 31 and fewer than N bits; for flut a queue and a table depth from 1 to 30, a table of at most N entries with more entries than states are live at once (C33, C97)", "why_tests_cant": "A test tries some cuts of some files; whether a cut is noticed depends on which states the remaining lines name.", "anchors": ["src/graph.cpp: Graph::from_istream, Graph::dump", "src/main.cpp: do_ltl2spec, do_att2spec, do_run_dfa_plain, do_run_offline, do_run_reverse, do_run_block, do_run_flut"]}
{"id": "C76", "title": "Files given the same name", "statement": "Whatever file --out names, even one of its own inputs, a command that writes a file ends in the same way and writes the same content there, because it reads its inputs before it opens its output; enc is the exception, since it empties its output first. So the commands of the README print the verdict of run plain also if the result is written over the spec, the input, the evaluation key or the ciphertexts, or if spec and input are one file. If enc writes over its input, the sequence still ends normally, but prints the verdict on the empty input, whatever the input was (offline, reverse, flut).", "quantifier": "every command that writes a file, every name for its output, all files, options, keys, randomness and schedules; for offline fewer than 2^31 inputs, for block a queue of at most 2^31 (C98); ciphertext files smaller than 2^63 bytes (file offsets are signed 64-bit numbers); where a verdict is right, a library whose worst-case errors stay within the noise budget of the parameters; for block the states live after the same number of inputs fit into fewer than 31 and fewer than N bits; for flut a queue and a table depth from 1 to 30, a table of at most N entries with more entries than states are live at once (C33, C97)", "why_tests_cant": "A test would have to try every command with every coincidence of names, and the silent loss of the input by enc shows only for inputs whose verdict differs from that of the empty one.", "anchors": ["src/main.cpp: do_genkey, do_genbkey, do_enc, do_run_offline, do_run_reverse, do_run_block, do_run_flut", "src/archive.hpp: read_from_archive, write_to_archive"]}
{"id": "C77", "title": "What the benchmark program prints", "statement": "For every command line of the benchmark program that follows its usage, readable spec and input: every run ends normally and prints exactly the expected comma-separated lines in order - the settings given, then for every input the times (plain: the state), before each evaluation the number of states reachable by the inputs evaluated so far (and for qtrlwe2 how the block was cut), after every --out-freq inputs the verdict of the automaton on the inputs so far, and at the end the totals: the number of CMUX gates and bootstrappings of the method as functions of automaton, input length, frequency and queue. Offline prints 0 for the empty input. An input that ends inside a record, and --sanitize-result, make every method with encryption fail before it prints anything about an input or a result. The line time shows the local date and time, with the month counted from 0, so that different moments are shown differently. Among these lines, on standard output too, are the log messages: for each line of the spec that does not describe a state, in order, that it is skipped; and with --verbose one after every bootstrapping of offline and reversed, and for every block of qtrlwe2 the numbers of states that can be reached before and after it and how it is cut.", "quantifier": "every method, all options, specs, inputs, keys and randomness, all orders in which the totals are printed; for offline fewer than 2^31 inputs, for block a queue of at most 2^31 (C98); where a verdict is right, a library whose worst-case errors stay within the noise budget of the parameters; for block the states live after the same number of inputs fit into fewer than 31 and fewer than N bits; for flut a queue and a table depth from 1 to 30, a table of at most N entries with more entries than states are live at once (C33, C97)", "why_tests_cant": "A test sees some runs; the lines printed depend on automaton, input length and the three frequencies together.", "anchors": ["src/benchmark.cpp: main, do_plain, do_offline, do_reversed, do_qtrlwe2, do_bbs, print", "src/timeit.hpp: TimeRecorder::dump", "src/online_dfa.cpp: OnlineDFARunner2, OnlineDFARunner3, OnlineDFARunner4"]}
{"id": "C78", "title": "The chance of a wrong verdict is at most the sum of the chances of single failures", "statement": "The library's error bounds hold with high probability, not surely. If every encryption of an input bit fails with chance at most e, and every call the run makes of a library function f leaves its error bound with chance at most e_f, then the chance that enc, run offline (or reverse, block, flut) and dec fail, or print something else than run plain prints, is at most (number of bits)*e plus the sum of e_f over the calls of the run; which calls these are is the same list for all keys, ciphertexts and randomness. No independence between the failures is needed, so one set of keys and correlated noise are covered.", "quantifier": "for all probability (or other) measures on keys and randomness, all specifications, inputs and parameters within the noise budget, and all failure rates; for offline fewer than 2^31 inputs, for block a queue of at most 2^31 (C98); ciphertext files smaller than 2^63 bytes (file offsets are signed 64-bit numbers); for block the states live after the same number of inputs fit into fewer than 31 and fewer than N bits; for flut a queue and a table depth from 1 to 30, a table of at most N entries with more entries than states are live at once (C33, C97)", "why_tests_cant": "tests see a few keys and runs; a failure chance such as 2^-40 can neither be sampled nor be attributed, and the union over a data-dependent run needs that the list of calls does not depend on the secrets", "anchors": ["src/main.cpp: do_enc, do_run_offline, do_run_reverse, do_run_block, do_run_flut, do_dec", "src/offline_dfa.cpp", "src/online_dfa.cpp", "src/backstream_dfa_runner.cpp", "src/tfhepp_util.cpp"]}
{"id": "C79", "title": "The library calls of a run, one by one", "statement": "The list of library functions a whole run calls, in order, is determined by the specification, the number of ciphertexts and the parameters, and is: for run offline, for every ciphertext as many CMUX gates as states of the minimal automaton can be reached at its position, and after every boot-interval-th ciphertext as many key switchings and blind rotations; for run reverse, the same with all states of the reversed minimal automaton; for run block, for every block a CMUX gate per position and live state, then, unless one state was live, a circuit bootstrapping per bit of the number of live states and a lookup table over these bits; for run flut, for every block two lookup tables (the second of half of the block or as deep as fits) and for every state live afterwards a packing, with a bootstrapping in every boot-frequency-th block. So the chance of a wrong verdict (C78) has an explicit bound.", "quantifier": "for all specifications, numbers of ciphertexts, queue sizes, frequencies, keys and ciphertexts, of runs that succeed; for offline fewer than 2^31 inputs, for block a queue of at most 2^31 (C98); ciphertext files smaller than 2^63 bytes (file offsets are signed 64-bit numbers); where a verdict is right, a library whose worst-case errors stay within the noise budget of the parameters; for block the states live after the same number of inputs fit into fewer than 31 and fewer than N bits; for flut a queue and a table depth from 1 to 30, a table of at most N entries with more entries than states are live at once (C33, C97)", "why_tests_cant": "cost and failure chance of a deployment are computed from such a formula for inputs far longer than any test; a test observes the time of a few runs, not which calls were made", "anchors": ["src/offline_dfa.cpp", "src/online_dfa.cpp: eval_one, eval_queued_inputs, result", "src/backstream_dfa_runner.cpp", "src/main.cpp: do_run_offline, do_run_reverse, do_run_block, do_run_flut"]}
{"id": "C80", "title": "What a pass of the benchmark regression test means", "statement": "test_benchmark.sh runs every method of the benchmark program on a spec, a spec meant for the reversed behaviour and an input, and compares the printed verdicts. Its function run_test passes if and only if there are at least 30 inputs and, after every 30 inputs, the reversed spec says about the inputs read backwards what the spec says about them: a correct pair never fails on a long enough input, a pair that differs at a reported place is found out, and an input of fewer than 30 propositions always fails. Without any assumption on the encryption, a pass means that every method printed, at every reported place, the verdict of the automaton on the inputs so far.", "quantifier": "every spec, reversed spec, input, number of propositions and contents of the scratch files, all keys and randomness, library sound within the budget (second part: any library); for offline fewer than 2^31 inputs, for block a queue of at most 2^31 (C98); for block the states live after the same number of inputs fit into fewer than 31 and fewer than N bits", "why_tests_cant": "The script is run on nine fixed pairs of files; whether a pass is evidence of anything, and whether a failure is, is a statement about all files.", "anchors": ["test_benchmark.sh:run_benchmark", "test_benchmark.sh:run_test", "src/benchmark.cpp"]}
{"id": "C81", "title": "What a pass of the end-to-end test means", "statement": "test_homfa.sh generates keys unless they are there already, and then runs checks: encrypt an input, run a spec on it by one of six methods, decrypt, compare with an expected result. For every list of checks on readable files within the limits of the methods, started without keys or with keys of an earlier run that belong together, the script passes if and only if every expected result is the verdict of the automaton (for the mode with a reversed spec: on the input read backwards). In particular all 46 checks of the script pass with the files of the repository, for all keys and all randomness.", "quantifier": "every list of checks, all spec and input files, all keys and randomness, every library that is sound within the budgets; for offline fewer than 2^31 inputs, for block a queue of at most 2^31 (C98); ciphertext files smaller than 2^63 bytes (file offsets are signed 64-bit numbers); for block the states live after the same number of inputs fit into fewer than 31 and fewer than N bits", "why_tests_cant": "One run of the script uses one set of keys, one randomness and the files of the repository; that it can neither fail spuriously nor hide a wrong verdict is a statement about all of them.", "anchors": ["test_homfa.sh:enc_run_dec", "test_homfa.sh:check_true", "test_homfa.sh:check_false", "test/", "src/main.cpp"]}
{"id": "C82", "title": "The chance that the README's commands print something wrong", "statement": "The README's five command lines (genkey, genbkey, enc, a run command, dec), each run drawing its own random numbers: if the chances are known that an encryption is bad and that a call of each library function exceeds its noise bound, the chance that the commands do not end normally with exactly what run plain prints, or change a file other than the four they write, is at most the number of input bits times the first plus the sum of the second over the calls listed by C79, whatever the schedules of the input stream are. Every execution of the commands is one with some random numbers.", "quantifier": "all automata, inputs, option values, file names that do not collide, file systems, libraries, probability spaces and failure rates, all schedules of the stream; the four run commands; for offline fewer than 2^31 inputs, for block a queue of at most 2^31 (C98); ciphertext files smaller than 2^63 bytes (file offsets are signed 64-bit numbers); for block the states live after the same number of inputs fit into fewer than 31 and fewer than N bits; for flut a queue and a table depth from 1 to 30, a table of at most N entries with more entries than states are live at once (C33, C97)", "why_tests_cant": "a failure probability over keys, noise and whole command sequences is not observable by running tests", "anchors": ["src/main.cpp:225-252 do_genkey, do_genbkey, do_enc", "src/main.cpp:284-472 do_run_*, do_dec", "README.md"]}
{"id": "C83", "title": "The converters read what is named and keep the verdict", "statement": "spec2spec (with any of its flags), spec2dot, spec2att and att2spec read standard input if no file or - is named; naming a file is the same as giving its text on standard input; a file that does not exist is an error whatever is on standard input. If run plain prints a verdict for a specification and an input, then spec2spec prints a specification with which run plain prints the same verdict (the opposite one with --negated; on the reversed bits with --reversed), and so does spec2att followed by att2spec if the automaton starts in state 0. No file is changed.", "quantifier": "all file systems, file names, standard inputs, specifications, inputs and record sizes, all lists of flags; automata of at most 2^31 states (states are numbered by ints); printed specifications of at most 2^31 characters (so that the state numbers are ints)", "why_tests_cant": "the agreement is over all automata and inputs and over two or three runs of the program", "anchors": ["src/main.cpp:482-523 do_spec2spec, do_spec2dot, do_att2spec, do_spec2att", "src/graph.cpp:238-244 Graph::from_att_file", "src/graph.cpp:196-202 Graph::from_file"]}
{"id": "C84", "title": "The dumps of the two BTT runners tell the same story", "statement": "After any input history in the range of C51, with at most 31 counters of at most 32 bits, dumping the encrypted runner with the secret key succeeds and prints the same accept bit and the same state as the plaintext runner's dump; the number printed for each counter, added to the plaintext runner's number, is the counter's target modulo 2^width; and the info number has exactly the bits of the counters that the last transition incremented.", "quantifier": "all BTTs in the class of C51, all histories, ciphertexts, reduction orders and backends within the budget", "why_tests_cant": "A test prints a few dumps; the dump decrypts a mixture of a state number, marks and counters that depends on the whole history, and its loops shift by up to 64 bits.", "anchors": ["src/counter.cpp: BTTRunner::dump, Weight::decrypt, BTTPlaintextRunner::dump, Counter::decrypt"]}
{"id": "C85", "title": "What the counter test program's end means", "statement": "When all parallel tests of the counter program have returned, it reports nothing if and only if every test made all of its comparisons and the encrypted and the plaintext runner agreed in each; a report names inputs after which they really differ; with a backend within its error budget no interleaving of the tests throws or reports anything. The exit status does not tell the two cases apart: it is 0 even after a report.", "quantifier": "all backends, BTTs, numbers of tests and inputs, random inputs, encryption randomness, and interleavings of the tests with the shared abort flag", "why_tests_cant": "The tests run in parallel and share an abort flag: which interleavings lose a report, or report without a difference, is a property of all schedules.", "anchors": ["src/counter.cpp: test, main"]}
{"id": "C86", "title": "BLOCK errs only if the errors of its last block add up", "statement": "With nothing assumed about the library: over any history of calls on a BLOCK runner that does not start with result(), no call fails, and each result is coefficient 0 of a fixed expression over library operations (a CMUX per letter of a block, then a table lookup by selectors made from the previous block's result). Whatever bits the ciphertexts are supposed to encrypt, its phase is the right message plus the sum of at most queue_size + B errors, those made in the last block by the CMUXes on the one path of its letters and of the lookup; it decrypts to the right bit exactly when that sum is below 1/4. The other coefficients, from which the next block's selectors are made, are right up to the errors of the same CMUXes; if circuit bootstrapping works within its margin, the selectors are right whenever these sums stay within it.", "quantifier": "all graphs, queue sizes, histories of calls, ciphertexts and backends; queue size at most 2^31 (C98); for block the states live after the same number of inputs fit into fewer than 31 and fewer than N bits", "why_tests_cant": "The errors are those of a randomised library on concrete ciphertexts; a test sees one outcome and cannot attribute it.", "anchors": ["src/online_dfa.cpp: OnlineDFARunner4::eval_queued_inputs, OnlineDFARunner4::result, lookup_table_with_timer"]}
{"id": "C87", "title": "The key files of the counter test program", "statement": "The counter test program keeps its keys in _skey and _bkey: it reads them if both exist and otherwise makes and writes new ones. In a directory without _bkey, or with two files of an uninterrupted run, and over any sequence of runs each of which may be stopped at any moment, every run that comes to its tests has an evaluation key made from its secret key; once one has come to the tests, all later ones have the same keys and the files do not change. If a run is stopped while _bkey is being written, no later run comes to the tests. A left-over _skey alone is overwritten; with a left-over _bkey alone, a run stopped between the two files makes the next one test with keys that do not belong together.", "quantifier": "all file contents, keys, random numbers, sequences of runs and moments at which they are stopped; an archive library that refuses archives whose end is missing", "why_tests_cant": "It is about every point at which a run can be killed and every sequence of such runs.", "anchors": ["src/counter.cpp: main", "src/archive.hpp: read_from_archive, write_to_archive"]}
{"id": "C88", "title": "FLUT is wrong only if the errors of its weights really add up", "statement": "Whatever the TFHE library does, each result of the FLUT runner is the sum of the weights of the accepting states in a run that is fixed by the ciphertexts fed so far, and its error is the sum of the errors of those weights. It therefore decrypts to the right bit exactly when that sum is below 1/4 in size (or exactly 1/4 if the input is rejected), and a bootstrapping of a weight whose own errors stay within the margin leaves only the error of the blind rotation.", "quantifier": "every library, every automaton with fewer than 2^max_second_lut_depth states reachable at once, every queue size from 1 to 30, every bootstrapping frequency, every history of calls, every sequence of ciphertexts and of bits they stand for; for flut a queue and a table depth from 1 to 30, a table of at most N entries with more entries than states are live at once (C33, C97)", "why_tests_cant": "Tests run a library whose errors are small; the condition for a wrong answer is about errors that happen almost never, in any combination.", "anchors": ["src/online_dfa.cpp: OnlineDFARunner3"]}
{"id": "C89", "title": "TFHE's own algorithms are a library the runners are right with", "statement": "If the library computes CMUX, key switches, blind rotation, circuit bootstrapping, gates and encryption as TFHE defines them, then for every choice of dimensions, decompositions, keys, masks and bounded noises the operations keep within error bounds that are given as a formula in these parameters. Consequently OFFLINE, REVERSE, BLOCK and FLUT answer as the plaintext automaton, the counter test program's runners agree, and the command sequence genkey, genbkey, enc, run offline (or reverse, block, flut), dec prints what run plain prints, whenever the formula stays below the margin.", "quantifier": "all dimensions, decompositions, keys, masks, noises within a bound, graphs, inputs and histories; for offline fewer than 2^31 inputs, for block a queue of at most 2^31 (C98); ciphertext files smaller than 2^63 bytes (file offsets are signed 64-bit numbers); for block the states live after the same number of inputs fit into fewer than 31 and fewer than N bits; for flut a queue and a table depth from 1 to 30, a table of at most N entries with more entries than states are live at once (C33, C97)", "why_tests_cant": "A test draws one key and one noise; the claim is about all of them, and the assumption that the library is sound is otherwise taken on trust.", "anchors": ["src/tfhepp_util.cpp: do_SEI_IKS_GBTLWE2TRLWE, do_SEI_IKS_GBTLWE2TRLWE_2, CircuitBootstrappingFFTLvl11, HomXORwoSE", "src/offline_dfa.cpp: OfflineDFARunner::eval_one", "src/online_dfa.cpp: eval_one, result", "src/counter.cpp: HomOR, HomANDNY, CircuitBootstrappingFFTLvl01", "src/main.cpp: do_genkey, do_genbkey, do_enc, do_dec"]}
{"id": "C90", "title": "Whatever the files contain, every command ends by itself", "statement": "Run homfa with any words, any files (missing, broken, cut, empty, of another kind, ciphertexts nobody encrypted) and any schedule of its threads. If no file exceeds what a stream can tell, the formula translator returns or stops itself, a spec given to run block has less than 2^30 states, and the queue size and LUT depth given to run flut stay below 31 with 2^depth at most the ring degree, then the program returns, or stops itself with an error message, a failing assertion or an uncaught out_of_range: no undefined behaviour, no endless loop, no read of an empty optional, no vector longer than a vector can be. Some schedule ends. The conditions on run flut are needed: with a queue of 31 bits or more every run on readable files asks for a table larger than any vector and throws, and with a depth of 32 or more every run that reads a ciphertext is undefined. An empty spec file makes run plain throw but run reverse answer as the automaton that rejects everything.", "quantifier": "all libraries, command lines, file systems, standard inputs and schedules of the loader threads; ciphertext files smaller than 2^63 bytes (file offsets are signed 64-bit numbers)", "why_tests_cant": "The space of broken files, texts, formulas' monitors and thread interleavings is unbounded; a test can only try some malformed inputs.", "anchors": ["src/main.cpp: main, do_*", "src/graph.cpp: Graph::from_istream, Graph::from_att_istream, Graph::from_ltl_formula", "src/archive.hpp: read_from_archive", "src/tfhepp_util.hpp: TRGSWLvl1InputStreamFromCtxtFile, ReversedTRGSWLvl1InputStreamFromCtxtFile"]}
{"id": "C91", "title": "Damaged lines of a specification are noticed or harmless", "statement": "The reader of spec files skips every line it does not understand. Layout (blanks, comments, empty lines, leading zeros, final newline) makes no difference: texts that list the same states are read alike. If lines of a spec are lost or become unreadable, the file is refused or what is read is the spec of its first states only. If the program itself printed the spec (ltl2spec, att2spec, or any printed graph with initial state 0), then with any such damage run plain, and the command sequence of the README with run offline, print what they print with the complete file or fail; run reverse, run block and run flut likewise unless not one spec line is left. A spec file with carriage returns before its newlines has no spec line at all: run plain and run offline fail, run reverse silently runs with the automaton that rejects everything. An AT&T file with carriage returns is refused.", "quantifier": "every spec text, every way of losing lines or turning them into lines that are no spec lines or adding such lines, every input, key, ciphertext and parameter of the commands; ciphertext files smaller than 2^63 bytes (file offsets are signed 64-bit numbers); where a verdict is right, a library whose worst-case errors stay within the noise budget of the parameters; automata of at most 2^31 states (states are numbered by ints); printed specifications of at most 2^31 characters (so that the state numbers are ints); for offline fewer than 2^31 inputs (C98); for block a queue of at most 2^31 (C98); for block the states live after the same number of inputs fit into fewer than 31 and fewer than N bits; for flut a queue and a table depth from 1 to 30, a table of at most N entries with more entries than states are live at once (C33, C97)", "why_tests_cant": "the ways to damage a file are infinite; a test damages one line of one file, and the silent cases (all later lines gone) are easily missed", "anchors": ["src/graph.cpp: Graph::from_istream, Graph::from_att_istream, Graph::dump", "src/main.cpp: do_run_dfa_plain, do_run_offline, do_run_reverse, do_run_block, do_run_flut"]}
{"id": "C92", "title": "An input can be sent in pieces", "statement": "A client that makes the keys once, encrypts its input piece by piece (each piece a whole number of records) with homfa enc and appends each new ciphertext file to what the server has already, and that asks, at any moments it likes, for a verdict by one of the homfa run commands and homfa dec, reads each time what homfa run plain prints for all of the input up to then. Where the input was cut and how often a verdict was asked for makes no difference.", "quantifier": "every cut of every input into pieces of whole records, every choice of the moments at which a verdict is asked for, every specification, key and randomness, all four methods; for offline fewer than 2^31 inputs, for block a queue of at most 2^31 (C98); ciphertext files smaller than 2^63 bytes (file offsets are signed 64-bit numbers); where a verdict is right, a library whose worst-case errors stay within the noise budget of the parameters; for block the states live after the same number of inputs fit into fewer than 31 and fewer than N bits; for flut a queue and a table depth from 1 to 30, a table of at most N entries with more entries than states are live at once (C33, C97)", "why_tests_cant": "There are exponentially many ways to cut an input and to choose the moments; tests encrypt one file once. The property rests on the ciphertext format having no header and on encryptions being independent.", "anchors": ["src/main.cpp:do_enc", "src/archive.hpp:write_to_archive", "src/tfhepp_util.hpp:TRGSWLvl1InputStreamFromCtxtFile", "src/main.cpp:do_run_offline"]}
{"id": "C93", "title": "What a pass of the unit test program means", "statement": "If test0 ends normally, then every automaton it builds from a spec file or a formula is printed as the table in the program says, so that the table is a specification of exactly the words of the file's automaton (or of their reversals, or of all other words) or of the runs of the formula's monitor; and the two ciphertexts left in _test_in were read back unchanged in both directions and contain no NaN. Conversely, with right tables and ciphertexts without NaN it can only end normally, whatever the key, the randomness and the schedule of the loader threads; in particular with the files of the repository.", "quantifier": "all tables of expected texts, all files, all libraries, keys and randomness, all schedules of the loader threads; ciphertext files smaller than 2^63 bytes (file offsets are signed 64-bit numbers); printed specifications of at most 2^31 characters (so that the state numbers are ints)", "why_tests_cant": "A run of the test shows one key, one randomness and one schedule; what a pass says about all words of the languages is beyond comparing texts.", "anchors": ["src/test0.cpp:main", "src/test0.cpp:expected_dump", "src/test0.cpp:test_serializer_deserializer", "src/test0.cpp:test_input_stream"]}
{"id": "C94", "title": "Any history of commands gives the right verdicts", "statement": "Take any sequence of homfa commands mixed with copying, appending, redirecting, editing and removing files: any number of secret keys, evaluation keys, specifications, inputs and runs by any of the four methods, in any order, with any file names, files being overwritten at will. Keep an account of what each file holds (these bytes; the i-th key; an evaluation key of the i-th key; encryptions of this input under the i-th key; a result standing for this verdict under the i-th key), which follows from the commands alone. If every command is used as meant according to this account (evaluation key, ciphertexts and result belong to the same key, parameters within the limits of the method, whole records), then the session ends normally for all random choices, every dec prints exactly what run plain prints for the specification and the input its result was made from, and all files that are plain bytes hold the bytes the account says.", "quantifier": "all sequences of commands and file operations, all file names, all initial files, all specifications and inputs, all random choices of the commands; for offline fewer than 2^31 inputs, for block a queue of at most 2^31 (C98); ciphertext files smaller than 2^63 bytes (file offsets are signed 64-bit numbers); for block the states live after the same number of inputs fit into fewer than 31 and fewer than N bits; for flut a queue and a table depth from 1 to 30, a table of at most N entries with more entries than states are live at once (C33, C97)", "why_tests_cant": "Tests run one fixed pipeline with one key; interleavings of several keys, inputs and overwritten files are unbounded in number.", "anchors": ["src/main.cpp:main", "src/main.cpp:do_genkey", "src/main.cpp:do_genbkey", "src/main.cpp:do_enc", "src/main.cpp:do_dec", "src/main.cpp:do_run_offline", "src/archive.hpp:read_from_archive", "src/archive.hpp:write_to_archive"]}
{"id": "C95", "title": "Which parts of the evaluation key each method needs", "statement": "The evaluation key made by genbkey has every table that any run of any method looks up, so no missing table is ever met. If an evaluation key lacks some tables, then for every specification and input for which the whole key would give a result: offline and reverse give the same result if the two tables for bootstrapping (key switching to level 0, bootstrapping from level 0 to 1) are there or the input is shorter than the bootstrapping frequency, and are undefined otherwise; flut the same if there are fewer blocks than the bootstrapping frequency, and in addition always asks for the packing table; block gives the same result if the three tables for circuit bootstrapping are there or only one state is reachable at the beginning of every block, and is undefined otherwise. Other tables are never looked at. A key without any tables fails an assertion.", "quantifier": "all sets of tables present, all specifications, inputs, parameters and libraries; for offline fewer than 2^31 inputs, for block a queue of at most 2^31 (C98); for flut a queue of at most 30", "why_tests_cant": "A test runs with the full key only, and whether a table is looked up depends on the automaton, the length of the input and the parameters.", "anchors": ["src/tfhepp_util.hpp:BKey", "src/tfhepp_util.cpp:do_SEI_IKS_GBTLWE2TRLWE_2", "src/tfhepp_util.cpp:CircuitBootstrappingFFTLvl11", "src/main.cpp:do_run_flut", "src/main.cpp:do_run_block", "src/backstream_dfa_runner.cpp:BackstreamDFARunner"]}
{"id": "C96", "title": "Commands running at the same time do not disturb each other", "statement": "Several runs of homfa may be started at the same time in one directory, for example two enc and two run commands in the background. If no command line names the file behind --out of another one, then however their accesses to files (looking for a file, reading some bytes, emptying a file, writing some bytes) are interleaved, each command prints what it would print alone or fails as it would fail alone, its output file is the one it would leave alone, all other files stay as they are, and the outcome is one of running the commands one after the other, in any order. So sessions of commands used as they are meant to be give the right verdicts also when commands are run in the background. The condition is needed: a run command started while enc is still writing its ciphertexts may see any beginning of them, end normally, and leave a result that decrypts to the verdict on the beginning of the input; and two enc commands with the same output file may both end normally and leave a file that everything that follows takes for the ciphertexts of a mixture of the two inputs, which nobody has encrypted.", "quantifier": "all numbers of commands, all command lines, all file contents, all interleavings, all sizes of the pieces read and written, all random numbers; for offline fewer than 2^31 inputs, for block a queue of at most 2^31 (C98); ciphertext files smaller than 2^63 bytes (file offsets are signed 64-bit numbers); where a verdict is right, a library whose worst-case errors stay within the noise budget of the parameters; for block the states live after the same number of inputs fit into fewer than 31 and fewer than N bits; for flut a queue and a table depth from 1 to 30, a table of at most N entries with more entries than states are live at once (C33, C97)", "why_tests_cant": "the interleavings are not under the control of a test, and their number grows without bound with the sizes of the files", "anchors": ["src/main.cpp: main, do_enc, do_run_offline, do_run_reverse, do_run_block, do_run_flut", "src/archive.hpp: read_from_archive, write_to_archive", "src/tfhepp_util.hpp: TRGSWLvl1InputStreamFromCtxtFile, ReversedTRGSWLvl1InputStreamFromCtxtFile"]}
{"id": "C97", "title": "The benchmark program ends by itself, and what it has printed by then is right", "statement": "On any command line and any files (missing, broken, cut, empty, or of another kind), with any keys and any random numbers, benchmark ends by returning, throwing, or stopping with a message: it performs no undefined operation, provided the spec given to bbs has less than 2^30 states and the queue and table options given to qtrlwe2 fit in int and in the ring. On an automaton in which more states become reachable than the tables of qtrlwe2 can hold, benchmark qtrlwe2 prints, for every input before the first block that does not fit, all the lines and all the results it would print otherwise, and they are right; then it stops at that input with an error message and a backtrace, which are on standard output too. With a queue size of 31 or more it asks, on every spec with states, for a table larger than any vector, and throws.", "quantifier": "all command lines, all file contents, all automata, all inputs, all keys, all random numbers", "why_tests_cant": "the contents of the files and the automata at which the tables overflow are unbounded, and undefined behaviour need not show in a test", "anchors": ["src/benchmark.cpp: main, do_plain, do_offline, do_reversed, do_qtrlwe2, do_bbs, enc_run_dec_loop", "src/online_dfa.cpp: OnlineDFARunner2, OnlineDFARunner3, OnlineDFARunner4"]}
{"id": "C98", "title": "Numbers of inputs that do not fit in an int", "statement": "If run offline is given a file of 2^31 or more ciphertexts it always stops with a failed assertion and writes no result. If run block is used with an output queue for more than 2^31 inputs (and at most 2^32) and given more than 2^31 inputs that all fit in the queue, it writes a result that does not depend on the inputs at all, so of two input strings of that length, one accepted and the other not, at least one gets the wrong verdict. (Below these sizes the two methods are right: C28, C30.)", "quantifier": "all specs, keys, libraries and ciphertexts; all numbers of inputs from 2^31 up (offline), all queue sizes and numbers of inputs between 2^31+1 and 2^32 (block); ciphertext files smaller than 2^63 bytes (file offsets are signed 64-bit numbers); for block the states live after the same number of inputs fit into fewer than 31 and fewer than N bits", "why_tests_cant": "a test would need files of 2^31 ciphertexts, tens of terabytes", "anchors": ["src/backstream_dfa_runner.cpp: BackstreamDFARunner eval_one", "src/online_dfa.cpp: OnlineDFARunner4::eval_queued_inputs"]}
{"id": "C99", "title": "What a runner holds does not grow with the stream, apart from time records", "statement": "However many inputs have been given to a runner and however often a result has been asked for: reverse holds two ciphertexts for each state of the smallest automaton of the reversed language (or of the given one, if it is said to be reversed already), offline two for each state of the given automaton and, for an input of k symbols, between k and k times the number of states state numbers; block holds at most the queue, one ciphertext for the state and one for each bit of the number of states; flut holds one for each state, fewer pending inputs than the queue takes, and tables with 2^(queue+1) - 1 entries for each state. The exception is the record of times, which is never emptied: reverse and offline have one entry for each input and one for each refreshing, block at least one for each input evaluated, so the memory of a run without end is not bounded. (Scratch space overwritten in each evaluation is not counted.)", "quantifier": "all specs, parameters, keys, libraries, ciphertexts and all histories of inputs and result requests that succeed; for block a queue of at most 2^31 (C98)", "why_tests_cant": "a leak of one entry for each input shows only in runs far longer than any test", "anchors": ["src/backstream_dfa_runner.cpp: BackstreamDFARunner", "src/online_dfa.cpp: OnlineDFARunner3, OnlineDFARunner4", "src/timeit.hpp: TimeRecorder"]}
{"id": "C100", "title": "The whole test script passes, and what a pass means", "statement": "test_homfa.sh from its first command to its last: with the files of the repository, an empty directory or the keys of an earlier run, and a library that keeps its promises, every run ends with success, whatever keys and randomness are drawn. More generally, with any tables for test0, any spec and number of lines for the conversion to AT&T format and back, and any checks, the script passes if and only if every automaton is printed as its table says, the number of lines is the number of states of the spec that can be reached from its state 0, and every expected result is the plain verdict. The line count is all that the conversion is tested for.", "quantifier": "All tables, specs, line counts, checks, key states, random draws and library behaviours within the noise limits; ciphertext files smaller than 2^63 bytes (file offsets are signed 64-bit numbers); automata of at most 2^31 states (states are numbered by ints); encryptions without NaN", "why_tests_cant": "A run of the script tries one key, one randomness and one set of files; whether a pass is guaranteed and what it tells about the program are statements about all runs", "anchors": ["test_homfa.sh", "src/test0.cpp", "src/main.cpp:do_spec2att", "src/main.cpp:do_att2spec", "src/graph.cpp:Graph::dump_att", "src/graph.cpp:Graph::from_att"]}
{"id": "C101", "title": "An input stream may be destroyed at any moment", "statement": "TRGSWLvl1InputStreamFromCtxtFile and ReversedTRGSWLvl1InputStreamFromCtxtFile may be destroyed between any two calls, whether all, some or none of the ciphertexts have been read and wherever the background thread is in loading the next one: the destructor always returns, after the load in progress has been completed; the thread has ended by then and never touches the file after it is closed or the object after its storage is released; and the answers given before are those of C21 and C22. The only way to die is next() on the exhausted stream.", "quantifier": "Every file of whole ciphertexts, both kinds of stream, every sequence of calls before the destructor, every interleaving of the loader thread with the caller and with the destructor; ciphertext files smaller than 2^63 bytes (file offsets are signed 64-bit numbers)", "why_tests_cant": "The order in which members are destroyed only matters under particular interleavings of the loader thread with the destructor; a test sees few of them, and a use after destruction may go unnoticed", "anchors": ["src/tfhepp_util.hpp: TRGSWLvl1InputStreamFromCtxtFile, ReversedTRGSWLvl1InputStreamFromCtxtFile", "src/tfhepp_util.cpp: start_loading_next, next"]}
{"id": "C102", "title": "What the encrypted BTT runner does depends on the number of ciphertexts only", "statement": "For any table of transitions, any queue size, any two backends and any two histories of equally many ciphertexts (proper encryptions or not), and in whatever order the parallel zero tests combine their bits, the encrypted BTT runner succeeds on both or fails in the same way on both, ends with the same possible states and equally many queued inputs, and calls the same functions of the library in the same order. A run that succeeds makes exactly the calls computed from the widths of the counters, the numbers of states possible after each transition, the queue size and the number of inputs; with the table of the repository's test, three circuit bootstrappings per input after the second.", "quantifier": "every table, queue size, two backends, two equally long lists of ciphertexts, every valid reduction order; where a verdict is right, a library whose worst-case errors stay within the noise budget of the parameters", "why_tests_cant": "A test compares runs on a few inputs; that nothing an onlooker sees depends on the encrypted bits is a statement about every pair of runs.", "anchors": ["src/counter.cpp: BTTRunner::eval_one, eval_queued_inputs, eval_block_cmuxs, result", "src/counter.cpp: Counter::is_zero, minus_one, cmux", "src/counter.cpp: Weight::cmux, update_counters"]}
{"id": "C103", "title": "--verbose only adds log messages to the benchmark's output", "statement": "A run of the benchmark program with --verbose prints what some run without it prints and, between these lines, log messages of level debug; it ends in the same way. Conversely every run without it is such a run. So the lines that do not begin with [ are the same, in the same order. If no word on the command line has a line break, then each line printed by a run that ends normally is a log message, which begins with [, or has one of a fixed list of keys before a comma.", "quantifier": "all command lines, files, keys, random numbers and times, including runs that fail", "why_tests_cant": "log messages and measurements are written to the same stream; that the messages change nothing else has to hold in every state in which one is written, with every file", "anchors": ["src/benchmark.cpp: main, print, print_elapsed, each do_ function", "src/graph.cpp: Graph::from_istream", "src/backstream_dfa_runner.cpp: BackstreamDFARunner::eval", "src/online_dfa.cpp: OnlineDFARunner3::eval_queued_inputs"]}
{"id": "C104", "title": "bench.sh and bench_ltl.sh measure nothing", "statement": "The measuring scripts time the commands run-offline-dfa and run-online-dfa, which this version of the program refuses, whatever follows them: no file is changed and no result is computed, and the failure is lost in the pipe to tee. bench.sh therefore never ends with status 0: dec prints 0 or 1, and the text that the script looks for goes to standard error. bench_ltl.sh ends with status 0 exactly if a readable result file of an earlier session is there before it starts (given keys, formulas with a monitor and inputs that exist), leaves that file as it was, and all the answers it prints are decryptions of that old file, whatever the formulas and inputs.", "quantifier": "all lists of specs, formulas and inputs, all contents of the directory, all keys and randomness, all numbers of timed repetitions", "why_tests_cant": "Running the scripts in one directory shows one outcome, and in a directory with an old result bench_ltl.sh looks healthy; that the answers never depend on the inputs is a statement about all of them.", "anchors": ["bench.sh", "bench_ltl.sh", "src/main.cpp: main, do_dec, print_result"]}
{"id": "C105", "title": "A spec reversed in advance gives the same runs", "statement": "`homfa run reverse` reverses and minimizes the automaton each time it starts. If a user keeps the output of `homfa spec2spec --reversed --minimized` for a spec (at most 2^31 characters), then `run reverse --spec-reversed` with that file does exactly what `run reverse` does with the spec itself: the same exits, the same text, bit for bit the same files. `--minimized` may be left out if every state of the spec can be reached. The benchmark program `reversed` likewise prints the same and ends in the same way, but for the name of the spec, if no line of the spec is one it skips.", "quantifier": "All specs spec2spec accepts, key and ciphertext files (also broken ones), output and bootstrapping intervals, and libraries.", "why_tests_cant": "That two automata give equal decrypted verdicts on sampled inputs does not show that all outcomes, including failures and ciphertext bits, agree for every spec and file.", "anchors": ["src/online_dfa.cpp: OnlineDFARunner2", "src/main.cpp: do_spec2spec, do_run_reverse", "src/graph.cpp: Graph::reversed, Graph::minimized, Graph::dump, Graph::from_istream"]}
{"id": "C106", "title": "Any command of a history may be stopped", "statement": "As C94, but any command line of the session (homfa, cp, cat >>, rm, a redirection, an editor), even one that makes no sense, may be stopped at any moment or end by itself with an error, any number of times. Only the files it names as its output are lost. If the commands that are not stopped are used as meant, where lost files are not used until they have been made again, then they all end normally for all random choices, every dec prints exactly what run plain prints for the specification and input its result was made from, and all files of known bytes that are not lost hold these bytes. A dec that is stopped has printed at most the beginning of the right verdict.", "quantifier": "All sequences of commands and file operations, all choices of the stopped ones and of the moments, all file names, initial files, specifications, inputs and random choices; limits of the methods as in C94.; ciphertext files smaller than 2^63 bytes (file offsets are signed 64-bit numbers); for block the states live after the same number of inputs fit into fewer than 31 and fewer than N bits; for flut a queue and a table depth from 1 to 30, a table of at most N entries with more entries than states are live at once (C33, C97)", "why_tests_cant": "Moments of interruption and histories are unbounded; tests interrupt a few commands at a few moments.", "anchors": ["src/main.cpp: main, do_genkey, do_genbkey, do_enc, do_run_*, do_dec", "src/archive.hpp: write_to_archive, read_from_archive"]}
{"id": "C107", "title": "Commands running at the same time, any of which may be stopped", "statement": "Several homfa commands are started at the same time in one directory, none naming the output file of another, and any of them may be stopped at any moment, also in the middle of a write, while the others go on. Each command that is not stopped prints what it would print alone, or fails as it would fail alone, and leaves in its output file what it would leave alone; files that are nobody's output are unchanged. In a session made of such groups and of single commands, any of which may be stopped, the commands that are not stopped and are used as meant (not using an output file of a stopped command before it has been made again) end normally and print the right verdicts.", "quantifier": "every set of commands, every interleaving of their file accesses, every choice of which are stopped and after which access, every earlier history, all random numbers; ciphertext files smaller than 2^63 bytes (file offsets are signed 64-bit numbers); for block the states live after the same number of inputs fit into fewer than 31 and fewer than N bits; for flut a queue and a table depth from 1 to 30, a table of at most N entries with more entries than states are live at once (C33, C97)", "why_tests_cant": "the interleavings and the points at which processes are killed cannot be enumerated, and a test has no control over either", "anchors": ["src/main.cpp: main, do_genkey, do_genbkey, do_enc, do_run_*, do_dec", "src/archive.hpp: write_to_archive, read_from_archive"]}
{"id": "C108", "title": "How much more one method may cost than another", "statement": "run offline evaluates at most one CMUX gate for every ciphertext and every row of the spec; run reverse (without --spec-reversed) at most 2^rows for every ciphertext. This gap is real: for every k there is a spec with k + 2 rows for which run offline takes at most k + 2 gates for every ciphertext and run reverse at least 2^k, and the spec that spec2spec --reversed makes of it has the gap the other way round: run reverse takes at most k + 2 gates for every ciphertext, and run offline at least 2^k for all but k of them.", "quantifier": "every spec, every input, every library; for the gap every k (up to the number of rows that can be read back); ciphertext files smaller than 2^63 bytes (file offsets are signed 64-bit numbers); for offline fewer than 2^31 inputs (C98)", "why_tests_cant": "the claim is about all specs and all input lengths, and the size of the automata grows exponentially, so that tests cannot reach the sizes where it matters", "anchors": ["src/main.cpp: do_run_offline, do_run_reverse, do_spec2spec", "src/backstream_dfa_runner.cpp: BackstreamDFARunner::eval", "src/graph.cpp: Graph::reversed, Graph::minimized"]}
{"id": "C109", "title": "Any history of commands on a disk that may fail", "statement": "In a session of homfa, cp, rm and an editor, any write of homfa to a file or to the terminal may fail, in any command and any number of times, even without being noticed; and any command may fail to end normally. If the commands that end normally are used as meant, where the output files of the others are not used until they have been made again, then each of them prints what it has to print or a beginning of it: every dec that ends normally prints exactly what run plain prints for the specification and input its result was made from, or nothing. All files of known bytes hold these bytes. The buffer of an output stream must be smaller than a ciphertext.", "quantifier": "All sequences of commands and file operations, all choices of the commands that do not end normally, all failing writes, all file names, initial files, specifications, inputs and random choices; limits of the methods as in C94. Not: redirections, and appending to files.; ciphertext files smaller than 2^63 bytes (file offsets are signed 64-bit numbers); for block the states live after the same number of inputs fit into fewer than 31 and fewer than N bits; for flut a queue and a table depth from 1 to 30, a table of at most N entries with more entries than states are live at once (C33, C97); an archive library that refuses archives whose end is missing", "why_tests_cant": "Failing writes and histories are unbounded; tests do not make a disk fail at each byte of each command of each history.", "anchors": ["src/main.cpp: main, do_genkey, do_genbkey, do_enc, do_run_*, do_dec", "src/archive.hpp: write_to_archive, read_from_archive", "src/tfhepp_util.hpp: TRGSWLvl1FFTSerializer, TRGSWLvl1FFTDeserializer"]}
{"id": "C110", "title": "A result of run offline or run reverse depends on nothing of the spec but the words it accepts", "statement": "The result file of run offline and of run reverse (with or without --spec-reversed) is bit for bit a function of the bootstrapping key, the ciphertexts, the bootstrapping interval and the set of words accepted by the spec that are as long as the input: it is the value of the decision tree of that set. Two specs that accept the same words of that length give the same outcomes - the same exit and the same bits in the result file - whatever their states and however they are written, so that not even the holder of the secret key can tell them apart by the result. run block does not have this property: with the same language and the same ciphertexts its results may differ in their noise.", "quantifier": "All specs, pairs of specs that agree on the words of the length of the input, ciphertext files (also of blocks that no one encrypted), keys, libraries, bootstrapping intervals and numbers of inputs; ciphertext files smaller than 2^63 bytes (file offsets are signed 64-bit numbers); for offline fewer than 2^31 inputs (C98)", "why_tests_cant": "Pairs of equivalent specs, ciphertexts and lengths are unbounded; tests decrypt a few results and never compare the ciphertexts of two specs.", "anchors": ["src/backstream_dfa_runner.cpp: BackstreamDFARunner::eval, bootstrap_weight, result", "src/offline_dfa.cpp: OfflineDFARunner", "src/online_dfa.cpp: OnlineDFARunner2", "src/main.cpp: do_run_offline, do_run_reverse, do_run_block"]}
{"id": "C111", "title": "Commands are reproducible", "statement": "How a run of homfa ends, what it prints and what it writes depend only on the files named on its line, on standard input and, for genkey, genbkey and enc, on the random numbers drawn: not on how its threads are scheduled, not on any other file and, unless the output file is also named as an input, not on what the output file held. So whoever has the same input and the same bootstrapping key can check a result file by running the command again, and running a command again after it has ended changes nothing. When the output file is also an input this need not hold: genbkey written over its own key fails the second time.", "quantifier": "every command line, every contents of the files, every standard input, every tape of random numbers, every schedule; ciphertext files smaller than 2^63 bytes (file offsets are signed 64-bit numbers)", "why_tests_cant": "A test repeats one command on one machine; that no run on no input can end differently is a statement about all of them", "anchors": ["src/main.cpp: main, do_genkey, do_genbkey, do_enc, do_dec, do_run_offline, do_run_reverse, do_run_flut, do_run_block, do_run_dfa_plain", "src/archive.hpp: read_from_archive, write_to_archive"]}
{"id": "C112", "title": "Ciphertexts carry no place", "statement": "Nothing ties a ciphertext to its place in a file, to the file it came in or to the run of homfa enc that made it. Any file put together from ciphertexts made by enc with one key, in any order, with any left out or repeated and from any number of inputs, is a file that enc could have written for the bits in that arrangement; each of the four methods followed by dec prints what run plain prints for that arrangement, and no command notices. Whoever can exchange the ciphertext file can thus choose which arrangement of the client's bits is judged, without any key.", "quantifier": "every list of ciphertexts taken from any outputs of enc with one key, every specification, key and randomness, all four methods; fewer than 2^31 ciphertexts for offline, at least one for block; ciphertext files smaller than 2^63 bytes (file offsets are signed 64-bit numbers); where a verdict is right, a library whose worst-case errors stay within the noise budget of the parameters; for block the states live after the same number of inputs fit into fewer than 31 and fewer than N bits; for flut a queue and a table depth from 1 to 30, a table of at most N entries with more entries than states are live at once (C33, C97)", "why_tests_cant": "A test tries a few rearrangements; that none is ever noticed or judged otherwise is a statement about all of them", "anchors": ["src/main.cpp: do_enc, do_run_offline, do_run_reverse, do_run_flut, do_run_block, do_dec", "src/tfhepp_util.cpp: TRGSWLvl1FFTSerializer, TRGSWLvl1FFTDeserializer, TRGSWLvl1InputStreamFromCtxtFile, ReversedTRGSWLvl1InputStreamFromCtxtFile"]}
{"id": "C113", "title": "An alarm is justified and never taken back", "statement": "Let a specification be printed by ltl2spec for a formula. With --make-all-live-states-final, the verdict after any number of bits, also in the middle of a time step, is 1 exactly if nothing was read yet or some behaviour that satisfies the formula begins with these bits; so a verdict 0 means that the formula can no longer be satisfied, whatever follows. Once a result of the REVERSE, BLOCK or FLUT runner decrypts to 0, every later result of the same runner decrypts to 0. Without the flag the same holds if results are asked for between time steps only: in the middle of a step the verdict is 0 whatever the bits are, and may be 1 again at the end of the step. At the command line, where inputs are whole time steps, a verdict 0 for an input means 0 for every input that continues it, with or without the flag.", "quantifier": "all formulas (through any monitor Spot may return for them), all recordings, all histories of inputs and results, all methods and their parameters within the noise budget; printed specifications of at most 2^31 characters (so that the state numbers are ints); for block a queue of at most 2^31 (C98); for block the states live after the same number of inputs fit into fewer than 31 and fewer than N bits; for flut a queue and a table depth from 1 to 30, a table of at most N entries with more entries than states are live at once (C33, C97)", "why_tests_cant": "a test asks for some verdicts of some recordings; that no later verdict contradicts an earlier one is about all continuations", "anchors": ["src/graph.cpp: from_ltl_formula, ltl_to_nfa_tuple", "src/main.cpp: do_ltl2spec, do_run_dfa_plain", "src/online_dfa.cpp: OnlineDFARunner2, OnlineDFARunner3, OnlineDFARunner4"]}
{"id": "C114", "title": "A verdict tells of a formula what finite recordings can tell", "statement": "If two formulas have the same finite beginnings of satisfying behaviours, in particular if they are equivalent, then the specifications that ltl2spec prints for them (with the same option) accept the same bit words, however different the monitors that Spot returns; run plain then prints the same for every input, and each outcome of run offline and run reverse with the one specification, with every bit of every file written, is an outcome with the other. In particular a part of a formula that only asks for something to happen at last has no influence, and the specification of F psi, for a psi that can be satisfied at all, never raises an alarm: run plain prints 1 for every input.", "quantifier": "all pairs of formulas, all monitors Spot may return for them, all inputs and ciphertext files, all frequencies; ciphertext files smaller than 2^63 bytes (file offsets are signed 64-bit numbers); printed specifications of at most 2^31 characters (so that the state numbers are ints)", "why_tests_cant": "a test compares two formulas on some inputs; equality is about all inputs, and liveness about all behaviours", "anchors": ["src/graph.cpp: from_ltl_formula, ltl_to_nfa_tuple", "src/main.cpp: do_ltl2spec, do_run_dfa_plain, do_run_offline, do_run_online_dfa", "src/offline_dfa.cpp: OfflineDFARunner", "src/online_dfa.cpp: OnlineDFARunner2"]}
{"id": "C115", "title": "Printed automata can be compared", "statement": "What spec2spec --minimized --reversed prints (with or without --negated) depends on nothing but the words the specification accepts: for two specification texts it is the same text if they accept the same words, and only then; spec2spec --reversed applied twice does the same. For what ltl2spec and att2spec print --minimized is enough: ltl2spec | spec2spec --minimized prints the same text for two formulas if and only if the same recordings are beginnings of behaviours that satisfy them. On other specifications --minimized alone may print two texts for the same words.", "quantifier": "All pairs of readable specifications, AT&T texts and formulas with their monitors, texts that fit an int; printed specifications of at most 2^31 characters (so that the state numbers are ints)", "why_tests_cant": "It compares the numbering of states of all equivalent automata, of any size; tests compare a few texts.", "anchors": ["src/graph.cpp: Graph::from_nfa, Graph::reversed, Graph::minimized, Graph::grouped_nondistinguishable, Graph::dump", "src/main.cpp: do_spec2spec, do_ltl2spec, do_att2spec"]}
{"id": "C116", "title": "Byte for byte through the AT&T format", "statement": "A specification printed by ltl2spec, by att2spec or by spec2spec --reversed (with any further flags) comes back byte for byte when it is converted with spec2att and back with att2spec; for these C15's loss of the initial state cannot happen. So converting to the AT&T format and back any number of times changes nothing after the first time. Specifications from elsewhere may come back with other state numbers.", "quantifier": "All formulas with their monitors, all AT&T texts, all readable specifications; texts that fit an int; printed specifications of at most 2^31 characters (so that the state numbers are ints)", "why_tests_cant": "It compares whole texts for automata of any size, and depends on the order in which two different algorithms number states.", "anchors": ["src/graph.cpp: Graph::from_att_istream, Graph::dump_att, Graph::from_nfa, Graph::reversed, Graph::minimized, Graph::dump", "src/main.cpp: do_spec2att, do_att2spec, do_ltl2spec, do_spec2spec"]}
{"id": "C117", "title": "The picture of a formula says what is monitored", "statement": "In the README's pipeline ltl2spec FML AP | spec2spec --minimized | spec2dot, a printed picture can be read in only one way; followed along its arrows from the start arrow to a double circle it accepts exactly the records of steps that begin a behaviour satisfying the formula; no deterministic automaton with fewer states than the picture has circles does the same; and two formulas have the same picture if and only if they have the same beginnings. In general spec2dot's picture accepts exactly the words of the specification, and two specifications have the same picture if and only if plain spec2spec prints them alike.", "quantifier": "all formulas, numbers of propositions, settings of --make-all-live-states-final, specifications, and readings of the printed text as a drawing; printed specifications of at most 2^31 characters (so that the state numbers are ints)", "why_tests_cant": "A test looks at the drawing of a few automata; that no other reading of the text exists, that the accepted words are exactly the formula's for words of every length and that no smaller automaton would do are statements about all texts, words and automata.", "anchors": ["src/main.cpp:do_spec2dot", "src/main.cpp:do_ltl2spec", "src/main.cpp:do_spec2spec", "src/graph.cpp:Graph::dump_dot", "src/graph.cpp:Graph::minimized", "README.md"]}
{"id": "C118", "title": "What homfa logs", "statement": "homfa writes a log to standard error. For runs that end normally: whatever --verbose and --quiet flags are given, the same outcomes (files and standard output) are possible as without a log; with --quiet (even beside --verbose) nothing is logged; with --verbose the log is that of a run without it plus messages of level debug (the line that repeats the words of the command apart). The log of run offline, reverse, block and flut is the same for all ciphertext files of the same length, all keys and all libraries, so it says nothing about the input; genkey, genbkey and enc log the settings only. What is reported is right: the skipped lines of the spec, the number of ciphertexts, for run offline the number of states of the smallest automaton and as Total #CMUX the sum over the positions of the number of states it can be in, for run reverse the number of states of the smallest automaton of the reversed language (or of the spec with --spec-reversed), for flut and block the number of states of the spec and the queue size; and the last message of dec and run plain repeats the printed verdict.", "quantifier": "all command lines that follow the usage, all files, keys, randomness, libraries and build settings, for runs that end normally; standard error not a terminal, times apart; ciphertext files smaller than 2^63 bytes (file offsets are signed 64-bit numbers)", "why_tests_cant": "The log leaks nothing for all pairs of ciphertext files and keys; a test compares a few. The reported sizes are claims about all automata and lengths.", "anchors": ["src/main.cpp:main", "src/main.cpp:dumpBasicInfo", "src/main.cpp:do_run_offline", "src/main.cpp:do_run_reverse", "src/main.cpp:do_run_flut", "src/main.cpp:do_run_block", "src/main.cpp:print_result", "src/error.hpp:error::initialize", "src/graph.cpp:Graph::from_istream"]}
{"id": "C119", "title": "What a verdict of the random test of the runners means", "statement": "The repository's random test of the runners (offline, online-reversed, online-qtrlwe2) encrypts inputs, runs a runner on the automaton of each LTL formula and compares the decrypted result with a walk over the formula's monitor. For every method, key and draw, the runners decide every word of whole letters as the monitor does, so a mismatch never comes from them (with sound operations within the noise budget). The test nevertheless shuffles the bits of each letter before giving them to the runner: it passes exactly if every formula treats each input and its shuffled version alike. It passes whenever the propositions of every formula are p0, ..., p(k-1); it reports a mismatch, although nothing is wrong, whenever the formula p1 over five propositions is in the list.", "quantifier": "Every scheme with sound operations within the noise budget, method, list of formulas (monitors) over 1 to 32 propositions, encryption randomness and list of random draws; every word of whole letters", "why_tests_cant": "A test cannot settle what its own verdict means for formulas and draws it was not run on; this test is off by default and does not compile at this commit.", "anchors": ["src/test_crypto_random.cpp: test_from_ltl_formula, create_table_to_permutate_input_bits, permutate_input_bits, check_if_accept", "src/graph.cpp: from_ltl_formula, ltl_to_monitor"]}
{"id": "C120", "title": "The debugging picture of a nondeterministic automaton", "statement": "The DOT text written for a nondeterministic automaton (initial states, final states, transition table) draws an ε arrow to each initial state, one circle per row, doubled exactly for final states, and between two states one arrow labelled with exactly the letters leading from one to the other; nothing is drawn twice. The text can be read in one way only, and following its arrows accepts exactly the words the automaton accepts. In particular the drawing of the automaton made for a formula accepts exactly the sequences of letters the formula's monitor can read (with the all-final option: exactly their prefixes).", "quantifier": "Every list of initial states, list of final states and transition table (for the words: rows numbered, successors and initial states in range); every word; every reading of the text", "why_tests_cant": "The drawing must be right for tables of every size and shape; a test compares a few pictures.", "anchors": ["src/graph.cpp: nfa_dump_dot"]}
{"id": "C121", "title": "What the log says about a bad specification", "statement": "Reading a spec file writes one note per skipped line, in order, and nothing else, as long as lines can be read. The program gives up with a message exactly if there is a first line, after k well-formed states, with an empty list item or a state number other than k; the log then ends with the message about that line and a backtrace. A message about a state number names the number found and the number k expected, so it determines the line; the message about an empty item names neither the line nor the item. Reading an AT&T file writes nothing unless a line is neither an edge nor a final state; then the message is that line. An AT&T file that cannot be opened is named. The message about an invalid letter never appears.", "quantifier": "Every text, spec or AT&T; every position of the first bad line", "why_tests_cant": "Which message appears and that it points to the first bad line must hold for every file; tests try a few bad files.", "anchors": ["src/graph.cpp: Graph::from_istream, Graph::from_att_istream, Graph::from_att_file", "src/error.hpp: error_die"]}
{"id": "C122", "title": "homfa gives up only with a message that is true", "statement": "Whatever the command line, the files and standard input, homfa logs errors in one way only: one message followed by the announcement of a backtrace, after which it exits with a failure status. If the message is 'Please specify subcommand', the line consists of --verbose and --quiet, with or without a final 'run'. If it is 'Invalid archive: f', then f is a file that the line names as a secret key, a bootstrapping key or a result, it exists and it does not hold one. If it is about a line of the specification, then that line of the file named by the line (or of standard input) is at fault as the message says and no line before it is. 'Invalid line: t' and 'Invalid filename: f' are logged by att2spec only, for a line t of its input that is neither an edge nor a final state after lines that are, and for a file f that does not exist. 'The number of next live states (k) must be smaller than 2^max_second_lut_depth (m)' is logged by run flut only, when there is a number of bits after which the automaton can be in exactly k states, m is two to the power of the number given with --max-second-lut-depth, and k is at least m; so it is never logged if the specification has fewer than m states. 'Use --out or --out-dir' and the two messages about things not implemented are never logged. Conversely, if the input of a run command is a file of ciphertexts, then a key or result that is not one and a specification with a line at fault make every run of a well-formed line give up with a message; and no run of a well-formed line is given up by homfa itself without one of these messages.", "quantifier": "all command lines, all file systems, all standard inputs, all keys, all lengths of input, all random choices; ciphertext files smaller than 2^63 bytes (file offsets are signed 64-bit numbers)", "why_tests_cant": "A test can look at one message for one bad file; that a message is never logged when what it says is not so, and never left out, concerns all command lines and files.", "anchors": ["src/error.hpp: error::die", "src/archive.hpp: read_from_archive", "src/main.cpp: main, do_run_offline, do_run_flut, do_run_reverse, do_run_block, do_dec, do_enc, do_genbkey, do_att2spec", "src/online_dfa.cpp: OnlineDFARunner3::eval_queued_inputs"]}
{"id": "C123", "title": "Minimising a specification never puts a run out of reach", "statement": "Among all automata for the same words the one written by spec2spec --minimized has, after every number of inputs, the fewest states that can be live: as many as it has can be live in every other one. So whatever limit on live states (the table size of flut, the number of state bits of block) holds for some specification also holds for the minimised one. From the command line: if run plain prints a verdict with a specification and run block or run flut, with some options, is within its limits for that specification (block also needs a non-empty input), then spec2spec --minimized prints a text with which the README's sequence with the same options prints this verdict.", "quantifier": "All pairs of automata for the same words, all numbers of inputs; all specifications, inputs, file names, options, keys and randomness, with a library whose worst-case errors stay within the noise budget; ciphertext files smaller than 2^63 bytes (file offsets are signed 64-bit numbers); printed specifications of at most 2^31 characters (so that the state numbers are ints); for block a queue of at most 2^31 (C98); for block the states live after the same number of inputs fit into fewer than 31 and fewer than N bits; for flut a queue and a table depth from 1 to 30, a table of at most N entries with more entries than states are live at once (C33, C97)", "why_tests_cant": "It compares the minimised automaton with all others for the same words, after every number of inputs; a test compares a few.", "anchors": ["src/graph.cpp: Graph::minimized, Graph::grouped_nondistinguishable, Graph::track_live_states", "src/online_dfa.cpp: OnlineDFARunner3::eval_queued_inputs, OnlineDFARunner4::eval_queued_inputs", "src/main.cpp: do_spec2spec, do_run_flut, do_run_block"]}
{"id": "C124", "title": "The cost of offline and reverse depends on the words only, and none is cheaper", "statement": "How a specification is written does not change what run offline and run reverse cost: with two specifications for the same words and equally many ciphertexts, run offline evaluates equally many CMUX gates, and so does run reverse, whatever the ciphertexts, keys, frequencies and libraries. The cost is the least an automaton allows: run offline evaluates, for each position of the input, at most as many CMUX gates as states can be live there in any automaton for the same words, and run reverse evaluates, for each ciphertext, at most as many as any automaton for the reversed words has states. So rewriting a specification by hand cannot make these two cheaper.", "quantifier": "All pairs of readable specifications for the same words, all automata, all lists of ciphertexts, frequencies, schemes, for runs that end normally; run reverse without --spec-reversed and with --out, both without --sanitize-result", "why_tests_cant": "It compares the cost of a run with that of all automata for the same words, for inputs of every length; a test measures a few.", "anchors": ["src/main.cpp: do_run_offline, do_run_reverse", "src/offline_dfa.cpp: OfflineDFARunner", "src/online_dfa.cpp: OnlineDFARunner2", "src/graph.cpp: Graph::minimized, Graph::reversed"]}
