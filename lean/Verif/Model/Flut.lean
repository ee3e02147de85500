import Verif.Model.Lut
import Mathlib.Data.Nat.Log

/-!
# The FLUT runner (src/online_dfa.cpp:119-188, 244-373)

`std::log2` on a size, subtracted from a `size_t` and truncated to `size_t`, is modelled by `- Nat.clog 2`; the double computation is exact
enough for the sizes that fit in memory.
-/

namespace Homfa

variable {N n l : Nat}

/-- `class OnlineDFARunner3` (src/online_dfa.hpp:49-63).  `debug_skey_` is unused.  `workspace_table1_` is cleared before use and
`workspace_table2_` only passed to `lookup_table`, which clears it; they are not part of the state. -/
structure Flut (N l : Nat) where
  graph : Graph
  weight : List (TRLWE N)
  queued : List (Gsw l N)
  maxSecond : Nat
  queueSize : Nat
  live : List Nat
  memo : List (List Nat)
  numEval : Nat
  bootFreq : Nat
  first : Nat
  second : Nat

/-- One row of `memo_transition_` (src/online_dfa.cpp:153-162).  Simplification: a graph without states has rows without entries, so its row
31 takes 2^64 - 2^31 idle turns instead of running out of memory. -/
def memoRow (graph : Graph) (depth : Nat) : Res (List Nat) := do
  let cnt ← shl1 depth
  (List.range cnt).foldlM (fun (memo : List Nat) input =>
    graph.allStates.foldlM (fun (memo : List Nat) src => do
      let dst ← graph.transition64 src (BitVec.ofNat 64 input) depth
      pure (memo ++ [dst])) memo) []

/-- The constructor (src/online_dfa.cpp:120-165). -/
def Flut.make (graph : Graph) (maxSecond queueSize bootFreq : Nat) (sanitize : Bool) : Res (Flut N l) := do
  if sanitize then throw .die
  let weight ← graph.allStates.foldlM (fun (weight : List (TRLWE N)) st =>
      if st = graph.initialState then do
        let w ← vat weight st
        vset weight st (w.setB0 mu2)
      else pure weight) (List.replicate graph.size (trivialTRLWEZero N))
  let memo ← (List.range (queueSize + 1)).foldlM (fun (memo : List (List Nat)) depth => do
      let row ← memoRow graph depth
      pure (memo ++ [row])) []
  pure { graph := graph, weight := weight, queued := [], maxSecond := maxSecond, queueSize := queueSize,
         live := [graph.initialState], memo := memo, numEval := 0, bootFreq := bootFreq, first := 0, second := 0 }

/-- "Calculate next live states" (src/online_dfa.cpp:253-262). -/
def flutNext (graph : Graph) (memo live : List Nat) (inputSize : Nat) : Res (List Nat) := do
  let cnt ← shl1 inputSize
  (List.range cnt).foldlM (fun (tmp : List Nat) input =>
    live.foldlM (fun (tmp : List Nat) stFrom => do
      let stTo ← vat memo (input * graph.size + stFrom)
      pure (sinsert stTo tmp)) tmp) []

/-- The map from states to indices (src/online_dfa.cpp:264-266). -/
def flutIdx (graph : Graph) (next : List Nat) : Res (List Nat) :=
  (List.range next.length).foldlM (fun (v : List Nat) i => do
    let q ← vat next i
    vset v q i) (List.replicate graph.size 0)

/-- The guard and the two LUT depths (src/online_dfa.cpp:271-284): returns (first, second). -/
def lutDepths (maxSecond numNext inputSize : Nat) : Res (Nat × Nat) := do
  let cap ← shl1Cap maxSecond
  if numNext ≥ cap then throw .die
  let second := min (inputSize / 2) (maxSecond - Nat.clog 2 numNext)
  let first := inputSize - second
  cassert (decide (first + second = inputSize))
  pure (first, second)

/-- The inner loops of one table entry (src/online_dfa.cpp:299-312), over the list of (st_from, input2); vector 0 is `table`, vector 1 is
`weight_`.  `c` is an uninitialised local; C25 shows that its old content does not matter. -/
def fillTask (graph : Graph) (memo st2idx : List Nat) (first numNext input1 : Nat) : List (Nat × Nat) → Prog (TRLWE N)
  | [] => .ret
  | (stFrom, input2) :: rest =>
    .local (vat memo (((input2 <<< first) ||| input1) * graph.size + stFrom)) fun stTo =>
    .read 1 stFrom fun w =>
    .local (vat st2idx stTo) fun idx =>
    .local ((trivialTRLWEZero N).multXk w (input2 * numNext + idx)) fun c =>
    .read 0 input1 fun t =>
    .write 0 input1 (t.add c) (fillTask graph memo st2idx first numNext input1 rest)

/-- One task of the rotation loop (src/online_dfa.cpp:321-324); vector 0 is `table`.  When `i * m > 2N` the unsigned subtraction wraps to a
number far above `2N`, where `mult_X_k` is out of bounds. -/
def rotTask (N numNext i : Nat) : Prog (TRLWE N) :=
  .read 0 i fun old =>
  .read 0 0 fun src =>
  .local (if i * numNext ≤ 2 * N then old.multXk src (2 * N - i * numNext) else .error .ub) fun c =>
  .write 0 i c .ret

/-- One task of the last loop (src/online_dfa.cpp:347-366); vector 0 is `weight_`, vector 1 is `table`. -/
def splitTask (S : Scheme N n l) (st2idx : List Nat) (boot : Bool) (st : Nat) : Prog (TRLWE N) :=
  .read 1 0 fun nextTrlwe =>
  .local (vat st2idx st) fun idx =>
  .local (sampleExtractAt nextTrlwe idx) fun t =>
  .local (if boot then sampleExtractAt (S.bsHalfToHalf (S.iks t)) 0 else .ok t) fun t =>
  .write 0 st (S.tlwe2trlwe t) .ret

/-- `OnlineDFARunner3::eval_queued_inputs` (src/online_dfa.cpp:244-373). -/
def Flut.evalQueued (S : Scheme N n l) (r : Flut N l) : Res (Flut N l) := do
  let inputSize := r.queued.length
  if inputSize = 0 then
    pure r
  else do
    let memo ← vat r.memo inputSize
    let next ← flutNext r.graph memo r.live inputSize
    let st2idx ← flutIdx r.graph next
    let d ← lutDepths r.maxSecond next.length inputSize
    let first := d.1
    let second := d.2
    let cnt1 ← shl1 first
    let cnt2 ← shl1 second
    let pairs := r.live.flatMap fun st => (List.range cnt2).map fun i => (st, i)
    let p ← two (← parFor ((List.range cnt1).map fun input1 => fillTask r.graph memo st2idx first next.length input1 pairs)
      [List.replicate cnt1 (trivialTRLWEZero N), r.weight])
    let t1 ← lookupTable S p.1 (r.queued.take first) []
    let table := vresize t1.1 cnt2 (trivialTRLWEZero N)
    let table ← one (← parFor ((List.range (cnt2 - 1)).map fun i => rotTask N next.length (i + 1)) [table])
    let t2 ← lookupTable S table (r.queued.drop first) t1.2
    let numEval := r.numEval + 1
    if r.bootFreq = 0 then throw .ub
    let boot := decide (numEval % r.bootFreq = 0)
    let p ← two (← parFor (next.map (splitTask S st2idx boot)) [r.weight, t2.1])
    pure { r with weight := p.1, queued := [], live := next, numEval := numEval, first := first, second := second }

/-- `OnlineDFARunner3::result` (src/online_dfa.cpp:166-180). -/
def Flut.result (S : Scheme N n l) (r : Flut N l) : Res (TLWE N × Flut N l) := do
  let r ← r.evalQueued S
  let acc ← r.live.foldlM (fun (acc : TRLWE N) st => do
      let f ← r.graph.isFinalState st
      if f then do
        let w ← vat r.weight st
        pure (acc.add w)
      else pure acc) (trivialTRLWEZero N)
  let c ← sampleExtractAt acc 0
  pure (c, r)

/-- `OnlineDFARunner3::eval_one` (src/online_dfa.cpp:182-188). -/
def Flut.evalOne (S : Scheme N n l) (r : Flut N l) (input : Gsw l N) : Res (Flut N l) :=
  let r := { r with queued := r.queued ++ [input] }
  if r.queued.length < r.queueSize then pure r else r.evalQueued S

end Homfa
