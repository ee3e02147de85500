import Verif.Model.BenchLog

/-!
# The regression test of the benchmark program (test_benchmark.sh)

Simplifications: the words of `run_test` are handed on as they are (the script does not quote its variables, so this is right for names without
blanks and wildcards); the three scratch files are kept apart from the files the benchmark program reads; `grep`, `tail` and `diff` work on
lines and do not fail otherwise; a run of the benchmark program with undefined behaviour counts as one that fails.
-/

namespace Homfa.Cli

variable {N n l : Nat}

/-- `cat _test_log | grep -E "^result"` (test_benchmark.sh:80-91): the lines that begin with "result" -/
def grepResult (text : List Char) : List (List Char) := (getlines '\n' text).filter ("result".toList).isPrefixOf

/-- `run_benchmark` (test_benchmark.sh:15-71): the words after `$BENCHMARK`; `none` when it calls `failwith`. -/
def runBenchmark (mode apSize spec input freq : String) : Option (List String) :=
  if mode = "offline" then some ["offline", "--spec", spec, "--in", input, "--bootstrapping-freq", "30000", "--ap", apSize]
  else if mode = "reversed" then
    some ["reversed", "--spec", spec, "--in", input, "--bootstrapping-freq", "30000", "--out-freq", freq, "--ap", apSize, "--spec-reversed"]
  else if mode = "qtrlwe2" ∨ mode = "flut" then
    some ["qtrlwe2", "--spec", spec, "--in", input, "--bootstrapping-freq", "1", "--out-freq", freq, "--ap", apSize, "--queue-size", "15",
      "--max-second-lut-depth", "8"]
  else if mode = "bbs" then some ["bbs", "--spec", spec, "--in", input, "--out-freq", freq, "--ap", apSize, "--queue-size", freq]
  else if mode = "plain" then some ["plain", "--spec", spec, "--in", input, "--out-freq", freq, "--ap", apSize]
  else none

/-- the commands of `run_test` -/
inductive TestCmd where
  /-- `run_benchmark mode apSize spec input freq` -/
  | bench (mode apSize spec input freq : String)
  /-- `cat _test_log | grep -E "^result" | tail -1 > _test_log_plain_last` -/
  | keepLast
  /-- `cat _test_log | grep -E "^result" > _test_log_plain` -/
  | keep
  /-- `diff _test_log_plain_last <(cat _test_log | grep -E "^result")` -/
  | diffLast
  /-- `diff _test_log_plain <(cat _test_log | grep -E "^result")` -/
  | diff

/-- `run_test` (test_benchmark.sh:73-92), with `OUTPUT_FREQ` 30 -/
def runTest (apSize spec rev input : String) : List TestCmd :=
  [.bench "plain" apSize spec input "1", .keepLast, .bench "plain" apSize spec input "30", .keep,
   .bench "offline" apSize spec input "0", .diffLast, .bench "reversed" apSize rev input "30", .diff,
   .bench "flut" apSize spec input "30", .diff, .bench "bbs" apSize spec input "30", .diff]

/-- the files `_test_log`, `_test_log_plain_last` and `_test_log_plain` -/
structure Scratch where
  log : List Char
  last : List (List Char)
  plain : List (List Char)

/-- One command: the scratch files after it, what was logged and by which method, and whether its exit status is 0.  The status of a pipeline
is that of its last command, and `grep` fails if there is no such line. (test_benchmark.sh:81-93) -/
inductive TestStep (L : Lib N n l) (fs : Files) (s : Scratch) : TestCmd → Scratch → List (String × List Char) → Bool → Prop
  | bench {mode apSize spec input freq toks text r} : runBenchmark mode apSize spec input freq = some toks → RunBench L fs toks text r →
      TestStep L fs s (.bench mode apSize spec input freq) { s with log := text } [(mode, text)] r.isOk
  | failwith {mode apSize spec input freq} : runBenchmark mode apSize spec input freq = none →
      TestStep L fs s (.bench mode apSize spec input freq) s [] false
  | keepLast : TestStep L fs s .keepLast { s with last := (grepResult s.log).getLast?.toList } [] true
  | keep : TestStep L fs s .keep { s with plain := grepResult s.log } [] (!(grepResult s.log).isEmpty)
  | diffLast : TestStep L fs s .diffLast s [] (s.last == grepResult s.log)
  | diff : TestStep L fs s .diff s [] (s.plain == grepResult s.log)

/-- A script under `bash -e` (test_benchmark.sh:1) stops at the first command that fails. -/
inductive TestRun (L : Lib N n l) (fs : Files) : Scratch → List TestCmd → List (String × List Char) → Bool → Prop
  | done {s} : TestRun L fs s [] [] true
  | stop {s t c cs logs} : TestStep L fs s c t logs false → TestRun L fs s (c :: cs) logs false
  | next {s t c cs logs logs' ok} : TestStep L fs s c t logs true → TestRun L fs t cs logs' ok → TestRun L fs s (c :: cs) (logs ++ logs') ok

end Homfa.Cli
