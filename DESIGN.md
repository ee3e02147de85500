# A formal model of homfa in Lean 4: design

This document says what is modelled, what each property's proof is about, what is trusted and what is left out.
`properties.jsonl` has the properties in English, `MANIFEST.json` the theorems that prove them, `AXIOMS.md` the axioms of
every claimed theorem (printed by Lean), `seeded/LOG.jsonl` the wrong programs the theorems were tried against.

## 1. Layout

| directory | contents |
|---|---|
| `lean/Verif/Spec`  | small specifications that do not mention the code: automata and runs, languages, bit decoding, spec file rows, AT&T and DOT grammars, monitors and letters, the manual of the command line, noise, schedules |
| `lean/Verif/Model` | the code, function by function, as total computable functions; every definition cites the file and lines of `/repo` it models and says where it simplifies |
| `lean/Verif/Proof` | lemmas |
| `lean/Verif/Props` | only the theorems `Cnn_...` of the properties, each followed by an `example` that meets its hypotheses on a concrete, non-trivial case |
| `tools` | `props.py`, `manifest.py` (write `properties.jsonl`, `MANIFEST.json`), `axioms.py` (writes `AXIOMS.md`), `coverage.py` (lists the lines of `/repo` no definition cites) |

A theorem named `..._partial` proves part of a property; the manifest note says what is missing.  A theorem whose name ends in
`_violated`, `_wrong`, `_lost_initial`, ... proves, with a concrete witness, that the claim as a user would state it is false of
the code.

## 2. How the code is modelled

**Failure is a value.**  Code that can stop lives in `Res α = Except Err α`.  `Err` separates `outOfRange` (`.at`, `stoi`),
`assertFail`, `die` (`error_die`: message and `exit(1)`), `badOptional`, `invalidArgument`, `ub` (undefined behaviour: shifts that are too long, accesses
outside an array, reading an indeterminate value, division by zero) and `diverge` (the fuel of a modelled loop ran
out; proved unreachable).  `assert` is live: the project clears `CMAKE_CXX_FLAGS_RELEASE` and never defines `NDEBUG`.

**Containers.**  `vector`/`array` are lists with checked access (`at` throws, `[]` outside is `ub`); `std::set<int>` is a strictly
increasing list; `map`/`unordered_map` are association lists where the iteration order is not used, or appear with an
arbitrary order where it is (`TimeRecorder::dumpCSV`); `queue`/`deque` are lists.

**Integers.**  Where the code depends on the width (torus, shifts, stream offsets, `transition64`, `Counter`) the model uses
`BitVec` or explicit bounds; the two places where the code puts a number of inputs into an `int` (`eval_one` of OFFLINE,
`eval_queued_inputs` of BLOCK) convert modulo 2^32 as the compilers do (`narrow`), and the theorems about these two methods ask for fewer than
2^31 inputs or a queue of at most 2^31 (C98 says what happens beyond).  Elsewhere `int`/`size_t` are `Nat`; theorems that need it carry the bound 2^31.
File offsets are `std::streamoff`, signed numbers of 64 bits, and no file is larger: theorems about the input streams ask for ciphertext files
smaller than 2^63 bytes.  Where only the plaintext file is given they ask for this with eight ciphertexts for each of its bytes, which is the
exact number if the number of propositions is a multiple of eight and more than enc writes otherwise.

**Floating point.**  `floor(log2 m)+1`, `max_depth - log2 m`, `log 8000 / log n` are exact integer logarithms.  The largest arguments
that occur are state counts, far below 2^53; that `std::log2` is exact enough there is trusted.

**TFHE.**  TFHEpp is an empty submodule.  What homfa itself computes on ciphertexts (sums, differences, multiplication by X^k,
trivial ciphertexts, phases, decryption, weight packing) is modelled on real ciphertexts: pairs of polynomials with `BitVec 32`
coefficients modulo X^N+1, for every N, and proved homomorphic (C24-C26).  `SampleExtractIndex` is modelled by its definition.  CMUX, identity key switch, blind
rotation, TLWE-to-TRLWE key switch, circuit bootstrapping, gates and encryption are fields of the structures `Scheme` and
`GateScheme`.

**Concurrency.**  A parallel loop is a set of tasks, each a program of atomic accesses to single elements; an execution is any
interleaving of all tasks (`Spec/Par.lean`, `Model/Par.lean`).  The input stream's loader thread and its lock
are a small-step machine with arbitrary schedules (`Model/Stream.lean`; with its destructor in `Model/Drop.lean`).  C35 shows each loop is race free and gives the sequential result, C64
lifts this to whole runs in which every loop of every call gets a schedule of its own.

**The process.**  `main.cpp` is modelled from the argument vector to the files (`Model/Cli.lean`, `Model/Commands.lean`, `Model/Shell.lean`): a
simplified CLI11 parser, the dispatch, the commands, a file system as a map from names to bytes, archives as injective encodings.  A command that
is stopped at any moment is in `Model/Crash.lean`, one whose writes fail in `Model/Fault.lean`, the printed lines of the benchmark program in
`Model/BenchLog.lean`.

## 3. Trusted base

1. Lean 4.33.0's kernel.  No `sorry`, `admit`, own axiom, `native_decide`, `bv_decide`, `implemented_by`, `unsafe` or `extern`.
2. Axioms: only `propext`, `Classical.choice`, `Quot.sound`.  `AXIOMS.md` has the list per theorem.
3. The correspondence between `/repo` and `Verif/Model`, which is by reading; the citations in every definition are there for checking it.
4. Assumptions about libraries.  They are hypotheses of the theorems (never axioms), and each has a concrete instance
   in the development, so no theorem is vacuous:
   * `Scheme.Sound S δ Enc` (`Spec/Scheme.lean`): every TFHE operation is within a worst-case error `δ`; used by C27-C34, C36-C40, C44, C49, C53, C64, C69 (one direction), C110, C113, C119, and through `Lib.Sound`.
     In TFHE such bounds hold with overwhelming probability, not surely; the theorems speak about executions in which they hold.
     C69 asks for the bounds only in the calls made by the run at hand (`OpCall.Within`, `Spec/Calls.lean`).
     The budgets are worst-case sums (frequency times CMUX error plus key switch plus rounding), below 2^30 for offline, reverse and flut and below 2^29 for block.
     C89 proves `Scheme.Sound` and `GateScheme.Sound` for TFHE's algorithms as published (`Spec/TfheAlg.lean`), for all keys, masks and bounded noises, with
     the bounds as a formula; so the assumption is consistent with what TFHE computes, not only with a toy.  That TFHEpp computes this (with FFT products) stays trusted.
   * `GateScheme.Sound` (`Spec/Counter.lean`): gates and level 0 circuit bootstrapping, for `counter.cpp` only (C50, C51, C84, C85, C102).
   * `Scheme.RefreshSound` (`Spec/Noise.lean`): key switch and blind rotation only; used by C65_right, which assumes nothing of CMUX.
   * `Lib.Sound` (`Spec/Shell.lean`): archives read back what was written; generated key pairs are sound (C61, C66-C68, C74-C77,
     C80, C81, C91, C92, C94, C96, C97, C100, C104, C106, C107, C109, C112, C123).
   * `Lib.RejectsTruncated` (`Spec/Crash.lean`): cereal refuses a key, evaluation key or result archive whose end is missing (C66, C74, C87, C109).
   * crashes (C66, C68, C87, C106, C107, C109): the bytes of a file appear in the order in which they are written, opening an output empties it, and a stopped process
     changes nothing else (no reordering by the file system).
   * `MonitorOk` (`Spec/Ltl.lean`): what Spot guarantees of a monitor (ordered, satisfiable conditions over registered propositions) (C41-C43, C54, C72, C93, C104, C113,
     C116, C119, C120).
   * `MonitorFor` (`Spec/Temporal.lean`): `MonitorOk`, and the monitor Spot returns for a formula reads exactly the beginnings of the
     infinite behaviours that satisfy it (C67, C113-C115, C117).
   * Spot does not call homfa's `error_die` (C122_loud only).
   * memory accesses to one element of an array are atomic; a `mutex`/`condition_variable` works as the standard says; file reads return the file's bytes.
   * `std::regex_match` decides whether a line has the given form; log lines of homfa go to standard error (src/error.hpp:18), so its standard
     output has only what the commands print; those of the benchmark program, which does not set this up, go to standard output (C77).
   * CLI11: long options with the value as the next word, one subcommand path, decimal numbers.  Other spellings it accepts
     (`--opt=value`, several subcommands on one line, `--help`) are treated as usage errors by the model.

## 4. What is modelled, file by file

`python3 tools/coverage.py` prints the lines no definition cites.

| file | modelled | not modelled |
|---|---|---|
| `graph.cpp`, `graph.hpp` | everything: factories, determinization, queries, minimization, union-find, spec/AT&T/DOT text, LTL tables, `nfa_dump_dot` (C120) | the call of Spot's translator (its result is an arbitrary monitor) |
| `offline_dfa.*`, `backstream_dfa_runner.*`, `online_dfa.*` | everything: all four runners and the unused `OnlineDFARunner`; timers as event lists; `spdlog` texts for runs that end normally (C77, C118) | `spdlog` texts of runs that fail |
| `tfhepp_util.*` | everything but key containers: streams with the loader thread, (de)serializers, bootstrapping wrappers, X^k, weights, HomXOR | `SecretKey`/`BKey` bodies and cereal templates (abstract keys and archives) |
| `utility.hpp`, `timeit.*` | everything | the clock (arbitrary readings) |
| `main.cpp` | every command, the options, the dispatch, the log of runs that end normally (C118), the fatal messages of runs that do not (C122) | the other log lines of runs that fail; TBB arena size |
| `benchmark.cpp` | options, dispatch, all five benchmarks, everything printed (`Model/Bench.lean` without, `Model/BenchLog.lean` with the settings, times and totals) | the values of elapsed times and of the date (any value of the kind) |
| `counter.cpp` | `Counter`, `BTT`, `BTTRunner`, `BTTPlaintextRunner`, the lookup table, `dump`, `test`, `main` with its key files (C84, C85, C87) and the test's automaton; from its text, since it is off by default and does not compile at this commit | the numbers printed at the start |
| `archive.hpp`, `error.*` | `read/write_to_archive` as encodings; `error_die` as an outcome; the pattern of a line of the log; the fatal messages about spec and AT&T files (C121) and all others of `homfa` (C122) | times and colours in the log, a failing write of an archive, the text of a backtrace |
| `test_benchmark.sh` | everything (C80) | `set -x` traces |
| `bench.sh`, `bench_ltl.sh` | everything, with any lists of specs, formulas and inputs (C104) | what `multitime` and `tee` do besides running `homfa` and appending to the log |
| `toolbox.sh` | no | it only commits a new version of a submodule |
| `test_homfa.sh` | the preparation of the keys and all 46 checks (C81), the call of `test0` and the check of `spec2att` (C100) | `_test_stderr` |
| `test0.cpp` | all of it as a program (C93); the expected dumps also evaluated on the model in `Check/Test0.lean` (36 checks, generated from the files by tools/testsuite.py; evidence that the model agrees with the authors' expectations, not proofs) | a failing write of `_test_in` |
| `test_plain_random.cpp`, `test_crypto_random.cpp` | the oracle and the test of the automata (C72); the test of the runners (C119) | logging; the archive of the keys; the option parser of the second. Both are off by default and do not compile or link at this commit (`bkey.gkey`, three-argument `ltl_to_monitor`) |

## 5. Properties and proofs

| id | what the model contains | how it is proved |
|---|---|---|
| C01, C02 | `from_nfa`'s work list with its map of subsets | loop invariant (every queued subset is the image of a word), refinement to the subset semantics, fuel by counting subsets |
| C03, C10 | `prev_states` tables, `reversed` | inverse relation by construction of the table; C01 and reversal of runs |
| C04-C07 | `removed_unreachable`, the table of distinguishable pairs, grouping | work-list invariants; the table is exactly distinguishability; injection into any equivalent DFA for minimality |
| C08 | `UnionFind` with path compression, any history of calls | forest invariant with a decreasing measure |
| C09, C11, C12 | direct | induction on words and depths |
| C13 (partial) | `transition64` with `int` masks | bit arithmetic; true to length 31, exact wrong behaviour at 32, undefined above |
| C14-C16, C18 | spec and AT&T text at character level | parser/printer inversion, induction over lines, declarative meaning of rows; C15 partial: false when the initial state is not 0 |
| C17 | every factory | from the theorems about each |
| C19 | `each_input_bit` | induction over records |
| C20-C23 | bytes, blocks, the stream object and the loader thread | invariant over all schedules |
| C24-C26 | ciphertexts modulo X^N+1 | algebra of the negacyclic ring |
| C27, C49 | bootstrapping wrappers, HomXOR | error arithmetic on signed representatives |
| C28, C29 | OFFLINE, REVERSE runners | invariant: every weight is within the budget of the ideal weight, for any history |
| C30, C31 | BLOCK runner with queue, live sets, lookup table | invariant over any history of `eval_one`/`result` |
| C32, C33 | FLUT runner, packing, rotation | same, with injectivity of the packing; what happens outside the assumptions |
| C34 | `lookup_table` | induction on the layers |
| C35 | each parallel loop as tasks of accesses | independence of tasks, commutation of accesses |
| C36-C40 | the commands of `main.cpp` | composition of the above |
| C41-C43, C54, C55 | `ltl_to_nfa_tuple` over an arbitrary monitor | expansion of decision diagrams, path invariants, reversal |
| C44 | the unused `OnlineDFARunner` | one-hot invariant; `result()` proved to abort |
| C45-C48 | constructors, weights, recorder, operation counts | direct, induction |
| C50, C51 | `counter.cpp` | ripple-borrow arithmetic; simulation between the two BTT runners; counterexample, general failure theorem and, without counters, the exact condition (C51 partial) |
| C52, C56, C57 | AT&T reader, converters, DOT | grammar of the text as a separate specification |
| C53 | `benchmark.cpp` | composition; offline benchmark wrong on empty input, with witness |
| C58 | argument parser and dispatch of both programs | equivalence with a declarative manual, in both directions |
| C59-C62 | command lines over files | composition; frame conditions; script semantics with arbitrary randomness and schedules |
| C60, C63 | two runs of a command | logical relation (equal evaluation operations; or only equal lengths) |
| C64 | whole runs under arbitrary schedules | C35 lifted through every call of a history |
| C65 | OFFLINE and REVERSE with an arbitrary backend | the run equals a CMUX tree, ciphertext for ciphertext; telescoping sum of errors along the path |
| C66 | commands stopped at any moment | relation of all states a stopped command leaves behind (`Model/Crash.lean`); case analysis stage by stage |
| C67 | from an LTL formula to the printed verdict | LTL syntax and semantics in `Spec/Temporal.lean`; C41/C43 and the text round trip of C14 composed with the command sequences of C61 |
| C68 | interrupted commands given again | invariant of the files kept by every attempt (C62 for stopped runs), induction on the history of attempts |
| C69 | right whenever the calls of the run itself are accurate | the commands as programs over library calls (`Model/Calls.lean`, shown equal to the commands); a run is the same with the library made exact outside its calls, to which C36-C40 apply |
| C70 | bad key, result and spec files | sources of each command in `Spec/Sources.lean`; case analysis of every moment of every command (`Interrupted`): whatever has been written or printed, the sources had been read |
| C71 | announced and recorded work | the programs of `Model/Calls.lean`: list of the kinds of calls of a successful run, function by function; timer entries tied to calls; sums over levels of the DFA |
| C72 | the random test of the automata passes | `Model/PlainTest.lean` models test_plain_random.cpp; the set walk of the oracle against runs of the monitor, letter by letter; composition with C03, C04, C41, C42 |
| C73 | minimisation is canonical | numbering of the groups by first occurrence (added to the invariant of the grouping loop), so that a reduced trim graph is copied; renaming through access words; Brzozowski's argument on the subset construction |
| C74 | commands while writes fail | `Model/Fault.lean`: output streams with a buffer, every `sputn` may take fewer bytes, the flush at close may fail unnoticed; what a command that ends normally leaves is the right output less at most a buffer; such a file is refused, or complete (a ciphertext of 98304 bytes is larger than a buffer of 8191), stage by stage |
| C75 | spec files whose end is missing | `Spec/Cut.lean` says where the cut is; a beginning of the printed text is the first rows of the graph, or ends in a shortened number; the first rows are refused, or closed under successors and so have the same language; both exceptions with witnesses |
| C76 | files given the same name | `Spec/Alias.lean` gives another word for `--out`; the call of the command differs in that file only and all its inputs are read before it is written (not so for `enc`); the sequence of C61 with the weaker `Usable` instead of `Names`, and with `enc` over its input |
| C77 | everything the benchmark program prints | `Model/BenchLog.lean` writes rows in a writer monad; loop invariants of the three runners give the rows of input i (`Proof/BenchRun.lean`); totals by summing what each turn records; `Spec/BenchLog.lean` gives the expected lines in closed form |
| C78 | the chance of a wrong verdict | keys, scheme and randomness depend on `ω` in a measure space (`Spec/Chance.lean`); C69 reduces a wrong verdict to a bad encryption or a call out of bounds, C63 makes the list of calls the same for all `ω`, and the union bound sums over it (`Proof/Chance.lean`); the failure rates are hypotheses, no probability of TFHE is proved |
| C79 | the calls of a whole run in closed form | `Spec/Plan.lean` lists them from the numbers of live states; an induction over the ciphertexts with the position in the queue as invariant (`queue_plan` in `Proof/Plan.lean`) and the calls of one step from C71; with C63 and a library without errors this makes the list in C78 explicit |
| C80 | `test_benchmark.sh`: `run_test` | the script as a list of commands with the semantics of `bash -e`; the logs from C77; induction on the list of commands by inversion; the lines `grep` keeps are shown to be the verdicts at the multiples of 30 |
| C81 | `test_homfa.sh`: `enc_run_dec`, the checks, the preparation of the keys | the script as a run over the file system; each method by C36-C39 through C58 (options in another order are the same call), induction over the checks with the keys in place as invariant; the checks of the repository by evaluating the plain verdicts in the kernel |
| C82 | whole sequences of command lines with the random numbers given | `Model/Tape.lean`: the runs of `Model/Shell.lean` with one tape of random numbers each; every run is one with some tape; C61's argument with fixed tapes, from the functions' results of C79 to the command lines; then monotonicity of the measure |
| C83 | the converters as command lines | every converter's run in closed form through C58; C18, C15 and C14 lifted to `run plain` on the converted file |
| C84 | `counter.cpp`: the dumps | invariant of C51 extended with the borrow marks; loops that collect bits; text equality |
| C85 | `counter.cpp`: `test`, `main` | transition system of the parallel tests with the shared flag; invariant over all schedules; witness run for the exit status |
| C86 | exact expression of the BLOCK result and of its error (Spec/BlockNoise.lean, `BlockRun`), over the model of C30 | invariant over histories; phase of trees by induction |
| C87 | `counter.cpp`: the key files of `main` (Model/CounterKeys.lean), with every moment at which a run can stop | invariant over sequences of runs |
| C88 | exact expression of the FLUT results and of their errors (Spec/FlutNoise.lean, `FlutRun`), over the model of C32 | invariant over histories; phase of trees and packed ciphertexts by induction |
| C89 | TFHE's algorithms with explicit keys, masks and noises (Spec/TfheAlg.lean, Spec/TfheLib.lean) in place of the abstract library | associativity of the negacyclic product; phase of the external product; induction over the blind rotation; digit sums by induction |
| C90 | every call of `homfa` (Model/Shell.lean) on arbitrary files; abnormal ends are the error values of `Res` | case analysis over the parsers; a measure for the search of every monitor edge; every file of whole blocks is a list of ciphertexts; the outcome of a run does not depend on library and ciphertexts (C63), so it is computed with an exact library; invariants for the graph without states |
| C91 | `from_istream` on texts some lines of which are lost or unreadable (Spec/Damage.lean), and the commands on them | induction over the damage: the states that are left are the first ones, or a line with a too large number follows; then C16, C14 and the reading of C75; a spec line cannot end in a carriage return |
| C92 | sessions of `homfa` calls and `cat a >> b` (Spec/Pieces.lean) | the encryption of a concatenation is the concatenation of encryptions (for some randomness), so that the file after any number of pieces is an encryption of the input so far and the run theorems behind C61 apply at each verdict; induction over the pieces. |
| C93 | src/test0.cpp as a program (Model/Test0.lean): tables of expected texts, `==` of doubles with NaN and signed zeros, the stream machine of C21/C22 | C14 and the language theorems C03, C04, C09, C41 for the tables; C20-C22 for the ciphertexts; the repository's files by evaluation of each block |
| C94 | sessions of any commands and file operations (`Session`), an account of what each file holds (`World`, `Step`, `History`) | simulation: an invariant relating the account to the files and the random numbers of the keys, preserved by every step; induction over the history |
| C95 | the tables of `BKey` and which call looks up which (`Model/KeyParts.lean`) | a key serves a run iff it serves every call of its trace (induction over the program); the calls are those of C79 |
| C96 | `Model/Parallel.lean` (a run of `homfa` as a sequence of single accesses to files — looks, readings of pieces, emptying, writings of pieces — and the interleaving of several such sequences), `Spec/Parallel.lean` (commands started together, `Independent`, sessions with background commands) | first the refinement: access by access a command does exactly what `RunHomfa` says (`C96_alone`); then a process whose files no other process writes to behaves as alone (induction over the interleaving), hence every outcome is one of the serial session in any order (`C96_serial`, `C96_schedule`) and C94 applies (`C96_history`); `C96_needed` and `C96_race` show that the condition cannot be dropped |
| C97 | `Model/BenchLog.lean` (as C77); `Spec/BenchEnd.lean` (`BenchFits`, `AlwaysStops`) | an invariant of each runner that holds for any ciphertexts whatever (the tables and queues keep their shapes), carried through the loop over the inputs; for `qtrlwe2` the invariant of C77 up to the first block that does not fit, and then the check in the evaluation fails (`fold_stops`) |
| C98 | `Model/Runners.lean` (`narrow`), `Model/Block.lean` (`countDown`) | OFFLINE: the number of inputs left, put into an `int`, is negative at the first input, so the assertion there fails; BLOCK: the counting-down loop is empty, so the result is built from the final weights alone |
| C99 | `Spec/Memory.lean`, `Proof/Memory.lean` | Sizes of the runner's fields as an invariant of any history; the automaton's size by C03–C05; scratch space that is filled anew in each evaluation is not counted |
| C100 | all of `test_homfa.sh`: `Test0Run`, the pipe `spec2att \| att2spec \| wc -l`, `SuiteRun` | C93 for the first step, C81 for the last; the number of lines by a bijection between the states of the spec read back and the states reachable from 0 (equal words lead to equal states in both) |
| C101 | the implicit destructors as a list of effects after the calls, interleaved with the loader thread (`Model/Drop.lean`); touching a closed file or released storage is undefined | the invariant of C21/C22 extended by the effects still to come; progress (whoever is waited for can move) and a bound on the steps |
| C102 | the encrypted BTT runner as a program that hands its calls of the library to an arbitrary answerer (`Model/CounterCalls.lean`, a free monad; `C102_same_program` ties it to the model of C51) | a relation between two such programs that make the same calls whatever the answers (`Proof/CounterAlike.lean`); a plan of calls as an invariant over inputs and queue (`Proof/CounterPlan.lean`); for the closed form, the live states are those reachable in the table |
| C103 | `Model/BenchLog.lean` (as C77), which writes debug messages when `--verbose` is given | a relation between two writer computations, equal results and equal rows but for those of level debug, closed under sequencing and loops (`Proof/Verbose.lean`); then induction on the rows for the texts |
| C104 | `Model/Measure.lean`: bench.sh and bench_ltl.sh as relations over files, the timed command repeated up to five times, its status lost | the command word is not in the table of the parser, so a timed run changes nothing; `dec` prints one character, so `grep` finds nothing; for bench_ltl.sh an invariant over the rounds: key and result file stay |
| C105 | the commands of C18 and C37 together | `spec2spec` prints a spec that is read back as the automaton `run reverse` computes (dump and parse are inverse; C73 if not minimized), so both lines have the same outcomes; `C105_bench`: the rows `benchmark reversed` prints depend on the spec through its name, the skipped lines and that automaton only |
| C106 | `Spec/Outage.lean`: sessions in which marked command lines are stopped (`Model/Crash.lean`), and their account | frame of a stopped run on the level of words; induction with the step lemma of C94 |
| C107 | `Spec/OutageParallel.lean`: interleaved traces of file accesses (C96), those of stopped commands cut off anywhere | isolation of each trace as in C96; the interleaving is a sequence in which a stopped command may leave anything in its output files; then the argument of C106 |
| C108 | the calls of `run offline` and `run reverse` (`Model/Calls.lean`, C71) | bounds from minimality (C05) and the subset construction (C02); for each k the spec of the words whose k-th bit is 1: an automaton for the reversed words is in a different state after any two words of k bits |
| C109 | `Spec/DiskHistory.lean`: sessions in which any write may fail (`Model/Fault.lean`) and any command may not end normally, and their account | a command that ends normally has read whole files (archives refuse a missing end, ciphertext files must have whole blocks, C74); so the account restricted to whole files is as in C94, and the step lemma applies; what is made may again lack its end |
| C110 | the commands of C36 and C37; `Spec/Tree.lean`: the decision tree of a set of words | after k inputs the weight of a state is the tree of the words accepted from it (induction on the inputs, for any scheme); the tree depends only on the words of its depth; for BLOCK a sound toy scheme and two specs of one language whose results differ |
| C111 | `RunOn` (a run with its tape of random numbers, Model/Tape.lean) | Every call is shown to be a function of the files it needs (`execOn_effect`: the list of writes it makes is the same for all file systems that agree on those), the input stream to give the same to all runs (`fetch_unique`); the word after `--out` that occurs once on the line is not an input (`before_unique`) |
| C112 | the command lines of C61; `Spec/Collage.lean`: what it means that some run of `enc` made a ciphertext | The ciphertext at place i of an output of `enc` is an encryption of bit i with the i-th random number; choosing the random numbers accordingly, any list of such ciphertexts is an output of `enc --ap 1`; the rest is C61 for that input |
| C113 | `Spec/Alarm.lean`: recordings whose last time step may be incomplete, verdicts that are never taken back | With the flag the accepted words are the beginnings of runs of the monitor (C43), which are the beginnings of satisfying behaviours (what Spot guarantees), bit by bit; the words of successive results are beginnings of each other, and acceptance passes to beginnings; C29, C30, C32 carry this to decrypted results |
| C114 | `Spec/Safety.lean`: formulas with the same finite beginnings | The accepted words are the beginnings (C113, C67), so equal beginnings give equal words; `run offline` and `run reverse` depend on nothing else (C110). A recording followed by a behaviour that satisfies ψ satisfies F ψ, by shifting time |
| C115 | No new model: `from_nfa`, `reversed`, `minimized`, `dump` as for C03, C04, C14 | `Proof/Bfs.lean`: the queue of `from_nfa` numbers the states in the order in which a breadth-first walk meets them, and `minimized` keeps this order; a renaming of trim automata (C73) that respects this order is the identity, by strong induction on the state. So equal words give equal graphs and equal texts; the converse reads the text back (C14). The limit without `--reversed` is a witness |
| C116 | No new model: `dump_att`, `from_att_istream`, `from_nfa` as for C15 | `Proof/BfsAtt.lean`: the automaton that is read back has the same states by the words that lead to them (C15), and both are numbered in the order of the breadth-first walk, so that the renaming is the identity (`Proof/Bfs.lean`). The limit is a witness |
| C117 | No new model: `dump_dot`, `minimized`, `from_monitor` as for C57, C05, C67. Meaning of a drawing in `Spec/Picture.lean` | `Proof/Picture.lean`: a DOT text is a list of statements in one way only, by induction on the list; the words along its arrows are those of the graph; then C05, C67 and C115 for the pipeline |
| C118 | `Model/HomfaLog.lean`: every `spdlog` call of `main.cpp`, of `from_istream` and of the runners as rows of a writer computation, `dumpBasicInfo`, the levels of `--quiet`/`--verbose`; one relation `RunLog` for whole runs that end normally | `Proof/HomfaLog.lean`: results of the writer computations are those of the model without a log; a relation "quieter" (same result, debug rows dropped) and a relation "alike" (same rows on other ciphertexts and keys), both closed under sequencing and loops; the rows of each command read off. Smallest automata and futures (residual languages) as in `Spec/HomfaLog.lean` |
| C119 | `Model/CryptoTest.lean`: the input streams, the table that shuffles the bits of a letter, the three methods and the loops of `test_crypto_random.cpp`; `Spec/CryptoTest.lean` says what the shuffled word is and which propositions a formula mentions | `Proof/CryptoTest.lean`: the table and the shuffling by loop invariants, the runs by C28, C29 and C32, the oracle by C72; a condition does not depend on unmentioned propositions, by induction on the diagram and the run |
| C120 | `Model/NfaDot.lean`: `nfa_dump_dot` as string concatenation; `Spec/NfaDot.lean`: the statements of a drawing, their concrete syntax, and acceptance by following arrows | `Proof/NfaDot.lean`: an invariant (the text so far is a list of statements) through the three loops; uniqueness because a statement ends at its only closing bracket |
| C121 | `Model/Diagnose.lean`: the readers of spec and AT&T files with their calls of `spdlog`, `error_die` with its three log lines; `Spec/Diagnose.lean`: notes, lines at fault, messages | `Proof/Diagnose.lean`: each line either is skipped, is read silently, raises an uncaught exception silently, or is at fault; the first bad line by induction; messages about numbers are injective |
| C122 | `Model/Complaint.lean`: every command with its calls of `error_die` and what each says, the dispatch too; `Spec/Complaint.lean`: the complaints and what must be so for each | `Proof/Complaint.lean`: closure of "silent, or one true last message" under sequencing; C121 for specifications; an invariant of the FLUT runner (its live states are those the automaton can be in after a number of bits) for the message with the count; the results agree with `Model/Shell.lean` function by function; `Proof/NoDie.lean`, `Proof/Loud.lean`: every function without a message is shown, one by one, not to end in `error_die` |
| C123 | as in C05 (`Graph.minimized`), C61 and C83 | `Proof/FewestLive.lean`: each live state of the minimised automaton is sent to the state that the other automaton is in after the same word; distinguishable states go to different ones; the printed text reads back as the minimised automaton, so C61 applies |
| C124 | the gates counted in C71 (`Comp.kinds`) | `Props/LeastWork.lean`: the sum of C71 term by term with C123; for reverse the size of the minimised reversed automaton with C05; equality from both directions |

Properties that cannot be expressed in this model: security of the ciphertexts (computational hardness), the failure rates
of single TFHE operations (they are parameters in C78, C79 and C82), running times, and memory use (including the stack used by `std::regex_match`
on very long lines).

## 6. Findings (each is a theorem)

* `transition64` reads wrong bits at length 32 and is undefined above (C13).
* AT&T export forgets the initial state (C15, C56); AT&T import throws when a reachable state has a larger number than every edge source (C52).
* A spec file without rows gives an empty graph on which every run throws (C16, C17, C59); rows referring to missing states are caught only
  when deterministic, or when reachable (C16).
* `is_end()` never holds at a block boundary (C23).
* `run block` aborts on empty input while `run plain` answers (C30, C38); `queue_size` 0 makes FLUT throw (C32); `out-freq` 0 divides by zero (C40).
* FLUT: `max_second_lut_depth` above log2 N is not checked and can give a wrong answer without an error (C33).
* `OnlineDFARunner::result` always aborts (C44).  Formulas with unknown propositions throw (C55).
* The offline benchmark prints 0 on empty input (C53).
* The encrypted BTT runner throws when the only live state is not 0 (C51); `Counter::decrypt` is undefined for numbers from 2^32 (C50).
* `--out-dir` and sanitizing cannot be reached from the command line (C58); `enc --in x --out x` destroys x and succeeds (C62).
* An `enc` that is killed, or that aborts because the last record of its input is cut off, can leave a ciphertext file that the following commands accept:
  they then print the verdict on a prefix of the input (C66).

## 7. Wrong programs

Every entry of `seeded/LOG.jsonl` is an edit of a model definition in a scratch copy (boundary, missing case, swapped arguments,
dropped update, wrong order, missing check), the claim it makes false, and the theorems whose proofs broke on rebuilding.  Survivors led to the
tightened theorems named in the entries; edits that turned out to be equivalent programs are logged as such.
