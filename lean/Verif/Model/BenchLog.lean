import Verif.Model.Bench
import Verif.Model.Shell
import Verif.Model.Timeit

/-!
# The benchmark program as a process: everything it prints (src/benchmark.cpp, src/timeit.cpp)

`std::endl` flushes every line, so the lines printed before an abnormal end can be seen.  Model/Bench.lean has the same functions without the
settings, the times and the log messages, and drops the lines of a run that fails.

`main` does not call `error::initialize` (src/error.hpp:14-21), as that of homfa does.  So the messages of spdlog go to its default logger,
which writes to standard output, among the measurements; messages of level debug only with `--verbose` (src/benchmark.cpp:565-566).

Simplifications: durations are natural numbers of microseconds and do not add up to 2^63; standard output is not a terminal, so that spdlog does
not colour the level; the text of error messages is left open; the messages of CLI11 and the assertions, which go to standard error, are not
modelled.
-/

namespace Homfa.Cli

variable {N n l : Nat}

/-- What stands after the key of a line. (src/benchmark.cpp:25-36) -/
inductive Val where
  /-- a name -/
  | str (s : String)
  /-- a number; a `bool` is printed as 0 or 1 -/
  | num (k : Nat)
  /-- a duration -/
  | time
  /-- the date and time at the start -/
  | date
  /-- in the dump of a timer: a number of operations and the duration of them all -/
  | total (k : Nat)
  /-- in a log message, whose level is the key: the text -/
  | message (s : List Char)
  deriving DecidableEq

/-- A line: `print(key, value)` (src/benchmark.cpp:25-29), or a log message with its level as key. -/
structure Row where
  key : String
  val : Val
  deriving DecidableEq

/-- `std::tm` (of `localtime`), as far as it is printed: `mon` counts from 0. (src/benchmark.cpp:18-21) -/
structure Tm where
  year : Nat
  mon : Nat
  mday : Nat
  hour : Nat
  min : Nat
  sec : Nat

/-- `current_time_str` (src/benchmark.cpp:14-23).  The month is printed as it is in `std::tm`, that is, January is 0. -/
def currentTimeStr (t : Tm) : List Char :=
  showNat (t.year + 1900) ++ ['-'] ++ showNat t.mon ++ ['-'] ++ showNat t.mday ++ ['_'] ++ showNat t.hour ++ ['-'] ++ showNat t.min ++ ['-'] ++
    showNat t.sec

/-- the text of a value; a clock decides about the times (src/benchmark.cpp:20-35) -/
inductive Val.Shows : Val → List Char → Prop
  | str (s) : Shows (.str s) s.toList
  | num (k) : Shows (.num k) (showNat k)
  | time (k : Nat) : Shows .time (showNat k)
  | date (t : Tm) : Shows .date (currentTimeStr t)
  | total (k t : Nat) : Shows (.total k) (showNat k ++ [','] ++ showNat t)

/-- the text of some lines; the default pattern of spdlog has the date and time, the level and the message (src/benchmark.cpp:28) -/
inductive Shows : List Row → List Char → Prop
  | nil : Shows [] []
  | cons {row rows v text} : row.val.Shows v → Shows rows text → Shows (row :: rows) (row.key.toList ++ [','] ++ v ++ ['\n'] ++ text)
  | log {level s rows text} (stamp : List Char) : '\n' ∉ stamp → Shows rows text →
      Shows (⟨level, .message s⟩ :: rows) ("[".toList ++ stamp ++ "] [".toList ++ level.toList ++ "] ".toList ++ s ++ ['\n'] ++ text)

/-- A computation that prints lines and ends normally or abnormally. (src/benchmark.cpp:445-596) -/
structure Out (α : Type) where
  rows : List Row
  res : Res α

/-- one computation after the other; nothing happens after an abnormal end (src/benchmark.cpp:445-596) -/
def Out.bind {α β : Type} (x : Out α) (f : α → Out β) : Out β :=
  match x.res with
  | .ok a => ⟨x.rows ++ (f a).rows, (f a).res⟩
  | .error e => ⟨x.rows, .error e⟩

instance : Monad Out where
  pure a := ⟨[], .ok a⟩
  bind := Out.bind

/-- `print` (src/benchmark.cpp:25-29) -/
def print (key : String) (v : Val) : Out Unit := ⟨[⟨key, v⟩], .ok ()⟩

/-- a computation that prints nothing (src/benchmark.cpp:445-596) -/
def quiet {α : Type} (r : Res α) : Out α := ⟨[], r⟩

/-- `print_elapsed` (src/benchmark.cpp:31-36): the line comes after what the function prints, and only if it returns. -/
def printElapsed {α : Type} (key : String) (f : Out α) : Out α := do
  let a ← f
  print key .time
  pure a

/-! ## Log messages -/

/-- `spdlog::debug` (src/graph.cpp:661, src/backstream_dfa_runner.cpp:76) -/
def debugRow (verbose : Bool) (s : List Char) : List Row := if verbose then [⟨"debug", .message s⟩] else []

/-- The lines that `from_istream` skips, until it ends or fails (src/graph.cpp:139-164). -/
def skipped : SpecSt → List (List Char) → List (List Char)
  | _, [] => []
  | p, line :: lines =>
    (if (matchSpecLine line).isNone then [line] else []) ++ match specLine p line with
      | .ok p => skipped p lines
      | .error _ => []

/-- `spdlog::info("Skip line \"{}\"", line)` (src/graph.cpp:141) -/
def skipRow (line : List Char) : Row := ⟨"info", .message ("Skip line \"".toList ++ line ++ ['"'])⟩

/-- `Graph::from_file` (src/graph.cpp:196-201) with its messages -/
def readSpecOut (fs : Files) (spec : String) : Out Graph := do
  let text ← quiet (readSpec (fs spec))
  (⟨(skipped { initSts := [], finalSts := [], delta := [], isDfa := true } (getlines '\n' text)).map skipRow, Graph.fromIstream text⟩ : Out Graph)

/-- The `eval` of the offline and the reverse runner with its message (src/backstream_dfa_runner.cpp:74-78).  What comes after the message
(`bootstrap_weight`) does not fail when the part before it has not. -/
def Backstream.evalOut (verbose : Bool) (S : Scheme N n l) (r : Backstream N) (c : Gsw l N) : Out (Backstream N) :=
  match r.eval S c with
  | .ok r' => ⟨if r'.numProcessed % r'.bootInterval = 0 then debugRow verbose "Bootstrapping occurred".toList else [], .ok r'⟩
  | .error e => ⟨[], .error e⟩

/-- The messages of `OnlineDFARunner3::eval_queued_inputs` (src/online_dfa.cpp:244-287), as far as it gets. -/
def Flut.evalQueuedLog (verbose : Bool) (r : Flut N l) : List Row :=
  let inputSize := r.queued.length
  if inputSize = 0 then []
  else match (do
      let memo ← vat r.memo inputSize
      let next ← flutNext r.graph memo r.live inputSize
      let _ ← flutIdx r.graph next
      pure next : Res (List Nat)) with
    | .error _ => []
    | .ok next =>
      debugRow verbose ("live states: ".toList ++ showNat r.live.length) ++
      debugRow verbose ("next live states: ".toList ++ showNat next.length) ++
      match lutDepths r.maxSecond next.length inputSize with
      | .error _ => []
      | .ok d => debugRow verbose ("LUT ".toList ++ showNat d.1 ++ " + ".toList ++ showNat d.2 ++ " = ".toList ++ showNat inputSize)

/-- `OnlineDFARunner3::eval_one` (src/online_dfa.cpp:182-188) with its messages -/
def Flut.evalOneOut (verbose : Bool) (S : Scheme N n l) (r : Flut N l) (c : Gsw l N) : Out (Flut N l) :=
  ⟨if r.queued.length + 1 < r.queueSize then [] else Flut.evalQueuedLog verbose { r with queued := r.queued ++ [c] }, r.evalOne S c⟩

/-- `OnlineDFARunner3::result` (src/online_dfa.cpp:166-180) with its messages -/
def Flut.resultOut (verbose : Bool) (S : Scheme N n l) (r : Flut N l) : Out (TLWE N × Flut N l) := ⟨Flut.evalQueuedLog verbose r, r.result S⟩

/-! ## `each_input_bit` with a callback that prints -/

/-- One turn of the inner `for` loop (src/utility.hpp:23-27), as in Model/Input.lean. -/
def inputByteOut {σ : Type} (func : σ → Bool → Out σ) : Nat → Byte → Nat → σ → Out (Nat × σ)
  | 0, _, rest, s => pure (rest, s)
  | n + 1, v, rest, s =>
    if rest = 0 then pure (rest, s)
    else do
      let s ← func s ((v &&& 1#8) != 0#8)
      inputByteOut func n (v >>> 1) (rest - 1) s

/-- The `while` loop (src/utility.hpp:16-28). -/
def inputBytesOut {σ : Type} (numAp : Nat) (func : σ → Bool → Out σ) : List Byte → Nat → σ → Out (Nat × σ)
  | [], rest, s => pure (rest, s)
  | v :: bytes, rest, s => do
    let rest := if rest = 0 then numAp else rest
    let p ← inputByteOut func 8 v rest s
    inputBytesOut numAp func bytes p.1 p.2

/-- `each_input_bit` (src/utility.hpp:9-30). -/
def eachInputBitOut {σ : Type} (file : Option (List Byte)) (numAp : Nat) (func : σ → Bool → Out σ) (s : σ) : Out σ := do
  let bytes ← quiet (match file with
    | some b => .ok b
    | none => .error .assertFail)
  let p ← inputBytesOut numAp func bytes 0 s
  quiet (cassert (p.1 == 0))
  pure p.2

/-! ## The five methods -/

/-- One turn of `enc_run_dec_loop` (src/benchmark.cpp:42-61) with the `run` of the three online bench runners (src/benchmark.cpp:128-136,
170-181, 217-226), on the runner and the number of inputs so far; `info` are the lines `run` prints first. -/
def logTurn {ρ : Type} (S : Scheme N n l) (rand : Nat → Nat) (evalOne : ρ → Gsw l N → Out ρ) (result : ρ → Out (TLWE N × ρ))
    (info : ρ → List Row) (freq : Nat) (s : ρ × Nat) (input : Bool) : Out (ρ × Nat) := do
  let c ← printElapsed "enc" (pure (S.encrypt (rand s.2) input))
  let p ← printElapsed "run" (do
    (⟨info s.1, .ok ()⟩ : Out Unit)
    let r ← evalOne s.1 c
    if freq = 0 then quiet (.error .ub)
    else if (s.2 + 1) % freq ≠ 0 then pure (r, none)
    else do
      let q ← result r
      pure (q.2, some q.1))
  match p.2 with
  | none => pure (p.1, s.2 + 1)
  | some res => do
    let b ← printElapsed "dec" (pure (decryptBit res S.sk))
    print "result" (.num b.toNat)
    pure (p.1, s.2 + 1)

/-- the callback of `do_plain` (src/benchmark.cpp:252-262) on `(cur, i)` -/
def logPlainTurn (gr : Graph) (freq : Nat) (s : Nat × Nat) (b : Bool) : Out (Nat × Nat) := do
  let cur ← quiet (gr.nextState s.1 b)
  print "state" (.num cur)
  let i := s.2 + 1
  if freq = 0 then quiet (.error .ub)
  else if i % freq = 0 then do
    let f ← quiet (gr.isFinalState cur)
    if f then print "result" (.num 1) else print "result" (.num 0)
    pure (cur, i)
  else pure (cur, i)

/-- `do_plain` (src/benchmark.cpp:234-263) -/
def logPlain (fs : Files) (spec input : String) (freq ap : Nat) : Out (List (Target × Nat)) := do
  print "config-method" (.str "plain")
  print "config-spec" (.str spec)
  print "config-input" (.str input)
  print "config-num_ap" (.num ap)
  let gr ← readSpecOut fs spec
  print "config-spec_num_states" (.num gr.size)
  let size ← quiet (benchInputSize (fs input) ap)
  print "config-input_size" (.num size)
  let _ ← eachInputBitOut (fs input) ap (logPlainTurn gr freq) (gr.initialState, 0)
  pure []

/-- The generation of the keys (src/benchmark.cpp:276-285, 333-342, 376-385, 416-425): always successful. -/
def logKeys : Out Unit := do
  print "skey" .time
  print "bkey" .time

/-- the loop of `do_offline` (src/benchmark.cpp:301-312) on `(runner_, result_, remaining_input_size_)` -/
def logOfflineTurn (verbose : Bool) (S : Scheme N n l) (rand : Nat → Nat) (s : Backstream N × TLWE N × Nat) (p : Bool × Nat) :
    Out (Backstream N × TLWE N × Nat) := do
  let c ← printElapsed "enc" (pure (S.encrypt (rand p.2) p.1))
  printElapsed "run" (do
    let r ← Backstream.evalOut verbose S s.1 c
    let rem := s.2.2 - 1
    if rem = 0 then do
      let res ← quiet r.result
      pure (r, res, rem)
    else pure (r, s.2.1, rem))

/-- `do_offline` (src/benchmark.cpp:265-319).  `remaining_input_size_` wraps below 0, which is never reached. -/
def logOffline (verbose : Bool) (S : Scheme N n l) (rand : Nat → Nat) (fs : Files) (spec input : String) (boot ap : Nat) (sanitize : Bool) :
    Out (List (Target × Nat)) := do
  print "config-method" (.str "offline")
  print "config-spec" (.str spec)
  print "config-input" (.str input)
  print "config-bootstrapping_freq" (.num boot)
  print "config-num_ap" (.num ap)
  print "config-sanitize_result" (.num sanitize.toNat)
  logKeys
  let bits ← quiet (eachInputBit (fs input) ap (fun (s : List Bool) b => .ok (s ++ [b])) [])
  let runner ← printElapsed "init" (do
    let gr ← readSpecOut fs spec
    quiet (offlineMake gr bits.length boot true sanitize))
  print "config-spec_num_states" (.num runner.graph.size)
  print "config-input_size" (.num bits.length)
  let s ← (bits.reverse.zipIdx).foldlM (logOfflineTurn verbose S rand) (runner, (⟨fun _ => 0, 0⟩ : TLWE N), bits.length)
  let b ← printElapsed "dec" (pure (decryptBit s.2.1 S.sk))
  print "result" (.num b.toNat)
  pure []

/-- what `do_reversed`, `do_qtrlwe2` and `do_bbs` do after the generation of the keys (src/benchmark.cpp:344-358, 387-402, 427-441) -/
def logOnline {ρ : Type} (S : Scheme N n l) (rand : Nat → Nat) (fs : Files) (spec input : String) (freq ap : Nat) (make : Graph → Res ρ)
    (graph : ρ → Graph) (evalOne : ρ → Gsw l N → Out ρ) (result : ρ → Out (TLWE N × ρ)) (info : ρ → List Row) : Out ρ := do
  let runner ← printElapsed "init" (do
    let gr ← readSpecOut fs spec
    quiet (make gr))
  print "config-spec_num_states" (.num (graph runner).size)
  let size ← quiet (benchInputSize (fs input) ap)
  print "config-input_size" (.num size)
  let s ← eachInputBitOut (fs input) ap (logTurn S rand evalOne result info freq) (runner, 0)
  pure s.1

/-- `do_reversed` (src/benchmark.cpp:321-360); the samples of the timer, for the dump that follows, are returned. -/
def logReversed (verbose : Bool) (S : Scheme N n l) (rand : Nat → Nat) (fs : Files) (spec input : String) (freq boot ap : Nat) (isSpecReversed sanitize : Bool) :
    Out (List (Target × Nat)) := do
  print "config-method" (.str "reversed")
  print "config-spec" (.str spec)
  print "config-input" (.str input)
  print "config-output_freq" (.num freq)
  print "config-bootstrapping_freq" (.num boot)
  print "config-num_ap" (.num ap)
  print "config-sanitize_result" (.num sanitize.toNat)
  logKeys
  let r ← logOnline S rand fs spec input freq ap (fun gr => reverseMake gr boot isSpecReversed true sanitize) Backstream.graph
    (fun r c => Backstream.evalOut verbose S r c) (fun r => do let c ← quiet r.result; pure (c, r)) (fun _ => [])
  pure r.timer

/-- `do_qtrlwe2` (src/benchmark.cpp:362-403) -/
def logFlut (verbose : Bool) (S : Scheme N n l) (rand : Nat → Nat) (fs : Files) (spec input : String) (freq maxSecond queueSize boot ap : Nat)
    (sanitize : Bool) : Out (List (Target × Nat)) := do
  print "config-method" (.str "qtrlwe2")
  print "config-spec" (.str spec)
  print "config-input" (.str input)
  print "config-output_freq" (.num freq)
  print "config-max_second_lut_depth" (.num maxSecond)
  print "config-queue_size" (.num queueSize)
  print "config-bootstrapping_freq" (.num boot)
  print "config-num_ap" (.num ap)
  print "config-sanitize_result" (.num sanitize.toNat)
  logKeys
  let _ ← logOnline S rand fs spec input freq ap (fun gr => Flut.make gr maxSecond queueSize boot sanitize) Flut.graph
    (fun r c => Flut.evalOneOut verbose S r c) (fun r => Flut.resultOut verbose S r)
    (fun r => [⟨"num_live_states", .num r.live.length⟩, ⟨"first_lut_depth", .num r.first⟩, ⟨"second_lut_depth", .num r.second⟩])
  pure []

/-- `do_bbs` (src/benchmark.cpp:405-443); the key "config-sanitize_reuslt" is spelled that way. -/
def logBlock (S : Scheme N n l) (rand : Nat → Nat) (fs : Files) (spec input : String) (freq queueSize ap : Nat) (sanitize : Bool) :
    Out (List (Target × Nat)) := do
  print "config-method" (.str "bbs")
  print "config-spec" (.str spec)
  print "config-input" (.str input)
  print "config-output_freq" (.num freq)
  print "config-queue_size" (.num queueSize)
  print "config-num_ap" (.num ap)
  print "config-sanitize_reuslt" (.num sanitize.toNat)
  logKeys
  let r ← logOnline S rand fs spec input freq ap (fun gr => Block.make gr queueSize sanitize) Block.graph
    (fun r c => quiet (Block.evalOne S r c)) (fun r => quiet (Block.result S r)) (fun r => [⟨"num_live_states", .num r.live.length⟩])
  pure r.timer

/-! ## The process -/

/-- what a process with both keys has (src/benchmark.cpp:271-272) -/
def Lib.process (L : Lib N n l) (k : L.Key) (b : L.BKey) : Scheme N n l :=
  { sk := L.secret k, cmux := L.cmux, iks := L.iks b, blindRotate := L.blindRotate b, tlwe2trlwe := L.tlwe2trlwe b, cb := L.cb b,
    encrypt := L.encrypt k }

/-- Whether `--verbose` is given (src/benchmark.cpp:462); it stands before the name of the method. -/
def benchVerbose (toks : List String) : Bool := toks.head? == some "--verbose"

/-- The `switch` of `main` (src/benchmark.cpp:568-593), for fresh keys and any randomness of the encryptions. -/
inductive BenchExec (L : Lib N n l) (fs : Files) (verbose : Bool) : Call → Out (List (Target × Nat)) → Prop
  | plain {spec input freq ap} : BenchExec L fs verbose (.benchPlain spec input freq ap) (logPlain fs spec input freq ap)
  | offline (q q' : Nat) (rand : Nat → Nat) {spec input boot ap sanitize} : BenchExec L fs verbose (.benchOffline spec input boot ap sanitize)
      (logOffline verbose (L.process (L.newKey q) (L.newBKey q' (L.newKey q))) rand fs spec input boot ap sanitize)
  | reversed (q q' : Nat) (rand : Nat → Nat) {spec input freq boot ap isRev sanitize} :
      BenchExec L fs verbose (.benchReversed spec input freq boot ap isRev sanitize)
        (logReversed verbose (L.process (L.newKey q) (L.newBKey q' (L.newKey q))) rand fs spec input freq boot ap isRev sanitize)
  | flut (q q' : Nat) (rand : Nat → Nat) {spec input freq maxSecond queueSize boot ap sanitize} :
      BenchExec L fs verbose (.benchFlut spec input freq maxSecond queueSize boot ap sanitize)
        (logFlut verbose (L.process (L.newKey q) (L.newBKey q' (L.newKey q))) rand fs spec input freq maxSecond queueSize boot ap sanitize)
  | block (q q' : Nat) (rand : Nat → Nat) {spec input freq queueSize ap sanitize} :
      BenchExec L fs verbose (.benchBlock spec input freq queueSize ap sanitize)
        (logBlock (L.process (L.newKey q) (L.newBKey q' (L.newKey q))) rand fs spec input freq queueSize ap sanitize)

/-- What `error_die` (src/error.hpp:61-76) logs: a message and a backtrace; other abnormal ends do not go through spdlog. -/
inductive DieRows : Err → List Row → Prop
  | die (message trace : List Char) :
      DieRows .die [⟨"error", .message message⟩, ⟨"error", .message "Preparing backtrace...".toList⟩, ⟨"error", .message trace⟩]
  | other {e} : e ≠ .die → DieRows e []

/-- One run of the benchmark program (src/benchmark.cpp:445-596): what it prints and how it ends.  After a normal end of the `switch` the timer
has been dumped; methods that do not dump it have an empty list of samples. -/
inductive RunBench (L : Lib N n l) (fs : Files) (toks : List String) : List Char → Res Unit → Prop
  | done {c rows timer text samples dump} : benchMain (fun f => (fs f).isSome) toks = .ok (some c) → BenchExec L fs (benchVerbose toks) c ⟨rows, .ok timer⟩ →
      Shows (⟨"time", .date⟩ :: rows) text → samples.map (fun s : Sample => (s.target, s.count)) = timer.map (fun p => (p.1, BitVec.ofNat 64 p.2)) →
      (samples.map Sample.time).sum < 2 ^ 63 → DumpCSV samples dump → RunBench L fs toks (text ++ dump) (.ok ())
  | fails {c rows e errs text} : benchMain (fun f => (fs f).isSome) toks = .ok (some c) → BenchExec L fs (benchVerbose toks) c ⟨rows, .error e⟩ →
      DieRows e errs → Shows (⟨"time", .date⟩ :: rows ++ errs) text → RunBench L fs toks text (.error e)
  | usage : benchMain (fun f => (fs f).isSome) toks = .ok none → RunBench L fs toks [] (.error .die)
  | bad {e} : benchMain (fun f => (fs f).isSome) toks = .error e → RunBench L fs toks [] (.error e)

end Homfa.Cli
