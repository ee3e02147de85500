import Verif.Model.Runners
import Mathlib.Data.Nat.Log

/-!
# The first online runner (src/online_dfa.cpp:10-97)

`std::log(8000) / std::log(n)` converted to `size_t` is modelled by `Nat.log n 8000`; for every n in 2..8000 a double computation gives this
number (the only n whose power is exactly 8000 are 20 and 8000, where it is exact).
-/

namespace Homfa

variable {N n l : Nat}

/-- `class OnlineDFARunner` (src/online_dfa.hpp:9-26) -/
structure Online1 (N : Nat) where
  graph : Graph
  weight : List (TRLWE N)
  interval : Nat
  numProcessed : Nat

/-- The constructor (src/online_dfa.cpp:11-37). -/
def Online1.make (graph : Graph) (hasKey sanitize : Bool) : Res (Online1 N) := do
  cassert hasKey
  if sanitize then throw .die
  let weight ← (List.range graph.size).foldlM (fun (weight : List (TRLWE N)) st => do
      let w ← vat weight st
      vset weight st (if st = graph.initialState then w.setB0 mu8 else w.setB0 (-mu8)))
    (List.replicate graph.size (trivialTRLWEZero N))
  cassert (decide (graph.size > 1))
  let interval := Nat.log graph.size 8000
  cassert (decide (interval > 0))
  pure { graph := graph, weight := weight, interval := interval, numProcessed := 0 }

/-- `OnlineDFARunner::result` (src/online_dfa.cpp:38-58). -/
def Online1.result (r : Online1 N) : Res (TLWE N) := do
  let acc ← (List.range r.graph.size).foldlM (fun (acc : TRLWE N) st => do
      let f ← r.graph.isFinalState st
      if f then do
        let w ← vat r.weight st
        pure ((acc.add w).add (trivialTRLWE8 N))
      else pure acc) (trivialTRLWEMinus8 N)
  cassert false
  sampleExtractAt acc 0

/-- The loops over the parents (src/online_dfa.cpp:73-80); vector 1 is `weight_`. -/
def sumTask : List Nat → TRLWE N → (TRLWE N → Prog (TRLWE N)) → Prog (TRLWE N)
  | [], acc, k => k acc
  | p :: ps, acc, k => .read 1 p fun w => sumTask ps ((acc.add w).add (trivialTRLWE8 N)) k

/-- One task of the update loop (src/online_dfa.cpp:67-82); vector 0 is `out`. -/
def online1Task (S : Scheme N n l) (graph : Graph) (input : Gsw l N) (st : Nat) : Prog (TRLWE N) :=
  .local (graph.prevStates st false) fun parents0 =>
  .local (graph.prevStates st true) fun parents1 =>
  sumTask parents0 (trivialTRLWEMinus8 N) fun acc0 =>
  sumTask parents1 (trivialTRLWEMinus8 N) fun acc1 =>
  .write 0 st (S.cmux input acc1 acc0) .ret

/-- One task of `bootstrap_weight` (src/online_dfa.cpp:91-97); vector 0 is `weight_`. -/
def bootEighthTask (S : Scheme N n l) (q : Nat) : Prog (TRLWE N) :=
  .read 0 q fun w =>
  .local (S.bootEighth w) fun w =>
  .write 0 q w .ret

/-- `OnlineDFARunner::eval_one` (src/online_dfa.cpp:60-89). -/
def Online1.evalOne (S : Scheme N n l) (r : Online1 N) (input : Gsw l N) : Res (Online1 N) := do
  let out := List.replicate r.weight.length (trivialTRLWEZero N)
  let p ← two (← parFor (r.graph.allStates.map (online1Task S r.graph input)) [out, r.weight])
  let weight := p.1
  let num := r.numProcessed + 1
  if r.interval = 0 then throw .ub
  if num % r.interval = 0 then do
    let weight ← one (← parFor ((List.range weight.length).map (bootEighthTask S)) [weight])
    pure { r with weight := weight, numProcessed := num }
  else pure { r with weight := weight, numProcessed := num }

end Homfa
