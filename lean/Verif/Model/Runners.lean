import Verif.Model.Nfa
import Verif.Model.Minimize
import Verif.Model.Par
import Verif.Model.Scheme

/-!
# The OFFLINE and REVERSE runners (src/backstream_dfa_runner.cpp, src/offline_dfa.cpp, src/online_dfa.cpp:100-117)
-/

namespace Homfa

/-- `TimeRecorder::TARGET` (src/timeit.hpp:14-18) -/
inductive Target where
  | circuitBootstrapping
  | bootstrapping
  | cmux
  deriving DecidableEq, Repr

/-- `v.resize(n, x)` on a `std::vector` (src/online_dfa.cpp:202, 228, 293) -/
def vresize {α : Type} (v : List α) (n : Nat) (x : α) : List α := v.take n ++ List.replicate (n - v.length) x

/-- `class BackstreamDFARunner` (src/backstream_dfa_runner.hpp:10-28).  `eval_key_` is asserted non-null by the constructor and
never changes, so it is not a field; its content is part of the `Scheme`.  `sanitize_result_` is false in every
object (C45).  `timer` keeps kind and count of the samples; durations are dropped. -/
structure Backstream (N : Nat) where
  graph : Graph
  weight : List (TRLWE N)
  inputSize : Option Nat
  bootInterval : Nat
  numProcessed : Nat
  workspace : List (TRLWE N)
  timer : List (Target × Nat)

variable {N n l : Nat}

/-- The constructor (src/backstream_dfa_runner.cpp:8-33).  `hasKey`: the shared pointer is not null. -/
def Backstream.make (graph : Graph) (bootInterval : Nat) (inputSize : Option Nat) (hasKey sanitize : Bool) :
    Res (Backstream N) := do
  cassert hasKey
  if sanitize then throw .die
  let graph ← (match inputSize with
    | some k => graph.reserveStatesAtDepth k
    | none => pure graph : Res Graph)
  let weight ← (List.range graph.size).foldlM (fun (weight : List (TRLWE N)) st => do
      let f ← graph.isFinalState st
      vset weight st (if f then trivialTRLWE2 N else trivialTRLWEZero N))
    (List.replicate graph.size (trivialTRLWEZero N))
  pure { graph := graph, weight := weight, inputSize := inputSize, bootInterval := bootInterval, numProcessed := 0,
         workspace := List.replicate graph.size (trivialTRLWEZero N), timer := [] }

/-- `BackstreamDFARunner::result` (src/backstream_dfa_runner.cpp:36-42). -/
def Backstream.result (r : Backstream N) : Res (TLWE N) := do
  let w ← vat r.weight r.graph.initialState
  sampleExtractAt w 0

/-- One task of the CMUX loop (src/backstream_dfa_runner.cpp:60-67); vector 0 is `out`, vector 1 is `weight_`. -/
def backstreamTask (S : Scheme N n l) (graph : Graph) (input : Gsw l N) (q : Nat) : Prog (TRLWE N) :=
  .local (graph.nextState q false) fun q0 =>
  .local (graph.nextState q true) fun q1 =>
  .read 1 q0 fun w0 =>
  .read 1 q1 fun w1 =>
  .write 0 q (S.cmux input w1 w0) .ret

/-- One task of the bootstrapping loop (src/backstream_dfa_runner.cpp:86-90); vector 0 is `weight_`. -/
def bootTask (S : Scheme N n l) (q : Nat) : Prog (TRLWE N) :=
  .read 0 q fun w =>
  .local (S.bootHalf w) fun w =>
  .write 0 q w .ret

/-- The two vectors after a loop over `[first, second]`. (src/online_dfa.cpp:515-521) -/
def two {α : Type} (m : Mem α) : Res (List α × List α) :=
  match m with
  | [a, b] => .ok (a, b)
  | _ => .error .ub

/-- The vector after a loop over `[v]`. (src/online_dfa.cpp:206-208) -/
def one {α : Type} (m : Mem α) : Res (List α) :=
  match m with
  | [a] => .ok a
  | _ => .error .ub

/-- `BackstreamDFARunner::bootstrap_weight` (src/backstream_dfa_runner.cpp:81-92). -/
def Backstream.bootstrapWeight (S : Scheme N n l) (r : Backstream N) (targets : List Nat) : Res (Backstream N) := do
  let weight ← one (← parFor (targets.map (bootTask S)) [r.weight])
  pure { r with weight := weight, timer := r.timer ++ [(.bootstrapping, targets.length)] }

/-- Conversion of an unsigned 64-bit number to `int`: the low 32 bits, read as a signed number.  The argument is the number before it is
reduced modulo 2^64, which does not change the low bits. (src/online_dfa.cpp:479, src/backstream_dfa_runner.cpp:51) -/
def narrow (x : Int) : Int := (BitVec.ofInt 32 x).toInt

/-- The states whose weight is updated (src/backstream_dfa_runner.cpp:48-56): those at the current depth when the input
size is known, else all.  `j` is an `int`. -/
def evalStates (graph : Graph) (inputSize : Option Nat) (numProcessed : Nat) : Res (List Nat) :=
  match inputSize with
  | some k => do
    let j : Int := narrow ((k : Int) - numProcessed)
    cassert (decide (j > 0))
    graph.statesAtDepthAt (j - 1).toNat
  | none => pure graph.allStates

/-- `BackstreamDFARunner::eval` (src/backstream_dfa_runner.cpp:44-79).  A zero `boot_interval_` divides by zero. -/
def Backstream.eval (S : Scheme N n l) (r : Backstream N) (input : Gsw l N) : Res (Backstream N) := do
  let out := vresize r.workspace r.graph.size (trivialTRLWEZero N)
  let states ← evalStates r.graph r.inputSize r.numProcessed
  let p ← two (← parFor (states.map (backstreamTask S r.graph input)) [out, r.weight])
  let r := { r with weight := p.1, workspace := p.2, timer := r.timer ++ [(.cmux, states.length)],
                    numProcessed := r.numProcessed + 1 }
  if r.bootInterval = 0 then throw .ub
  if r.numProcessed % r.bootInterval = 0 then r.bootstrapWeight S states else pure r

/-- `OfflineDFARunner` (src/offline_dfa.cpp:7-25): the constructor fixes `input_size`; `result` and `eval_one` forward. -/
def offlineMake (graph : Graph) (inputSize bootInterval : Nat) (hasKey sanitize : Bool) : Res (Backstream N) :=
  Backstream.make graph bootInterval (some inputSize) hasKey sanitize

/-- `OnlineDFARunner2` (src/online_dfa.cpp:100-117): reverse and minimize unless told that the spec is already reversed. -/
def reverseMake (graph : Graph) (bootInterval : Nat) (isSpecReversed hasKey sanitize : Bool) : Res (Backstream N) := do
  let g ← (if isSpecReversed then pure graph else do
    let r ← graph.reversed
    r.minimized : Res Graph)
  Backstream.make g bootInterval none hasKey sanitize

/-- feed a sequence of ciphertexts: the loops around `eval_one` (src/main.cpp:281-282) -/
def Backstream.evalAll (S : Scheme N n l) (r : Backstream N) (inputs : List (Gsw l N)) : Res (Backstream N) :=
  inputs.foldlM (fun r c => r.eval S c) r

end Homfa
