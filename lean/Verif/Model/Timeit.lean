import Verif.Model.Runners
import Verif.Model.Text
/-!
# Model of `TimeRecorder` (src/timeit.cpp, src/timeit.hpp)

The runners' own `timer` fields (Model/Runners.lean, ...) keep what they pass to `TimeRecorder::timeit`; here is the recorder itself.
-/

namespace Homfa

/-- `TimeRecorder::Sample` (src/timeit.hpp:21-25).  `count` is a `size_t`; `time` is a non-negative number of microseconds. -/
structure Sample where
  target : Target
  count : BitVec 64
  time : Nat
  deriving DecidableEq, Repr

/-- What a user does with a recorder.  For `timeit` the duration of the call, which the clock decides, is part of the event. (src/timeit.hpp:29-34) -/
inductive RecOp where
  | timeit (s : Sample)
  | clear
  deriving DecidableEq, Repr

/-- `TimeRecorder::timeit` and `clear` (src/timeit.cpp:19-28) on `samples_`. -/
def RecOp.run (samples : List Sample) : RecOp → List Sample
  | .timeit s => samples ++ [s]
  | .clear => []

/-- A recorder after some calls; the constructor (src/timeit.cpp:15-17) starts with no samples. -/
def recorder (ops : List RecOp) : List Sample := ops.foldl RecOp.run []

/-- `it->second.count += sample.count; it->second.time += sample.time;` for the entry with the key of the sample
(src/timeit.cpp:37-38).  The count wraps; the time is an `int64_t`, whose overflow is undefined. -/
def addSample (entries : List Sample) (s : Sample) : Res (List Sample) :=
  entries.mapM fun e => if e.target = s.target then
      (if e.time + s.time < 2 ^ 63 then .ok { e with count := e.count + s.count, time := e.time + s.time } else .error .ub)
    else .ok e

/-- The first loop of `dumpCSV` (src/timeit.cpp:32-39); the `unordered_map` as a list of its entries. -/
def summarize (samples : List Sample) : Res (List Sample) :=
  samples.foldlM (fun entries s => if entries.any (fun e => e.target == s.target) then addSample entries s else .ok (entries ++ [s])) []

/-- The labels of src/timeit.cpp:42-51. -/
def Target.label : Target → List Char
  | .circuitBootstrapping => "time_recorder-circuit_bootstrapping".toList
  | .bootstrapping => "time_recorder-bootstrapping".toList
  | .cmux => "time_recorder-cmux".toList

/-- One turn of the second loop (src/timeit.cpp:42-53). -/
def Sample.line (s : Sample) : List Char :=
  s.target.label ++ [','] ++ showNat s.count.toNat ++ [','] ++ showNat s.time ++ ['\n']

/-- `TimeRecorder::dumpCSV` (src/timeit.cpp:30-55).  The order of the entries of an `unordered_map` is not specified: any order may come out. -/
def DumpCSV (samples : List Sample) (text : List Char) : Prop :=
  ∃ entries order : List Sample, summarize samples = .ok entries ∧ order.Perm entries ∧ text = order.flatMap Sample.line

end Homfa
