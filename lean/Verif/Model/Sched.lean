import Verif.Model.Flut
import Verif.Model.Block
import Verif.Model.Online1
import Verif.Spec.Sched

/-!
# The runners with their loops left open

The functions of Model/Runners, Model/Lut, Model/Block, Model/Flut and Model/Online1 that contain parallel loops, once more, with the execution
of every loop handed to a parameter `pf : Loops`.  The theorems `*_sequential` at the end check (by `rfl` or by induction over the inputs) that
with `pf` running the tasks one after the other they are the functions of those files.
-/

namespace Homfa

variable {N n l : Nat}

/-- run the tasks of every loop one after the other
(the loops of src/online_dfa.cpp:206, 234, 298, 320, 345, 482, 515-519 and src/backstream_dfa_runner.cpp:60, 86) -/
def Loops.sequential : Loops := ⟨fun _ ts m => parFor ts m⟩

/-! ## OFFLINE and REVERSE -/

/-- `BackstreamDFARunner::bootstrap_weight` (src/backstream_dfa_runner.cpp:81-92). -/
def Backstream.bootstrapWeightWith (pf : Loops) (S : Scheme N n l) (r : Backstream N) (targets : List Nat) : Res (Backstream N) := do
  let weight ← one (← pf.run (86, 0) (targets.map (bootTask S)) [r.weight])
  pure { r with weight := weight, timer := r.timer ++ [(.bootstrapping, targets.length)] }

/-- `BackstreamDFARunner::eval` (src/backstream_dfa_runner.cpp:44-79). -/
def Backstream.evalWith (pf : Loops) (S : Scheme N n l) (r : Backstream N) (input : Gsw l N) : Res (Backstream N) := do
  let out := vresize r.workspace r.graph.size (trivialTRLWEZero N)
  let states ← evalStates r.graph r.inputSize r.numProcessed
  let p ← two (← pf.run (60, 0) (states.map (backstreamTask S r.graph input)) [out, r.weight])
  let r := { r with weight := p.1, workspace := p.2, timer := r.timer ++ [(.cmux, states.length)],
                    numProcessed := r.numProcessed + 1 }
  if r.bootInterval = 0 then throw .ub
  if r.numProcessed % r.bootInterval = 0 then r.bootstrapWeightWith pf S states else pure r

/-! ## Lookup tables -/

/-- The loop over the inputs of `lookup_table` (src/online_dfa.cpp:204-212, 228-241); `k` tells the two tables of FLUT apart. -/
def lutLoopWith (pf : Loops) (k : Nat) (S : Scheme N n l) (inputSize : Nat) : List (Gsw l N) → Nat → List (TRLWE N) → List (TRLWE N) →
    List (Target × Nat) → Res (List (TRLWE N) × List (TRLWE N) × List (Target × Nat))
  | [], _, tmp, table, timer => .ok (tmp, table, timer)
  | c :: rest, i, tmp, table, timer => do
    let cnt ← shl1 (inputSize - i - 1)
    let p ← two (← pf.run (k, i) ((List.range cnt).map (lutTask S c)) [tmp, table])
    lutLoopWith pf k S inputSize rest (i + 1) p.2 p.1 (timer ++ [(.cmux, cnt)])

/-- `lookup_table_with_timer` (src/online_dfa.cpp:215-242). -/
def lookupTableTimerWith (pf : Loops) (k : Nat) (S : Scheme N n l) (table : List (TRLWE N)) (inputs : List (Gsw l N))
    (workspace : List (TRLWE N)) (timer : List (Target × Nat)) : Res (List (TRLWE N) × List (TRLWE N) × List (Target × Nat)) := do
  let inputSize := inputs.length
  let sz ← shl1 inputSize
  cassert (decide (table.length = sz))
  if inputSize = 0 then
    pure (table, workspace, timer)
  else do
    let half ← shl1 (inputSize - 1)
    let tmp := List.replicate half (trivialTRLWEZero N)
    let r ← lutLoopWith pf k S inputSize inputs 0 tmp table timer
    pure (r.2.1, r.1, r.2.2)

/-- `lookup_table` (src/online_dfa.cpp:190-213). -/
def lookupTableWith (pf : Loops) (k : Nat) (S : Scheme N n l) (table : List (TRLWE N)) (inputs : List (Gsw l N)) (workspace : List (TRLWE N)) :
    Res (List (TRLWE N) × List (TRLWE N)) := do
  let r ← lookupTableTimerWith pf k S table inputs workspace []
  pure (r.1, r.2.1)

/-! ## BLOCK -/

/-- "Propagate weight from back to front" (src/online_dfa.cpp:476-496). -/
def blockPropagateWith (pf : Loops) (S : Scheme N n l) (graph : Graph) (queued : List (Gsw l N)) (atDepth : List (List Nat)) :
    Nat → List (TRLWE N) → List (TRLWE N) → List (Target × Nat) →
    Res (List (TRLWE N) × List (TRLWE N) × List (Target × Nat))
  | 0, weight, out, timer => .ok (weight, out, timer)
  | i + 1, weight, out, timer => do
    let states ← vat atDepth i
    let p ← two (← pf.run (482, i) (states.map (blockTask S graph queued i)) [out, weight])
    blockPropagateWith pf S graph queued atDepth i p.1 p.2 (timer ++ [(.cmux, states.length)])

/-- `OnlineDFARunner4::eval_queued_inputs` (src/online_dfa.cpp:411-535). -/
def Block.evalQueuedWith (pf : Loops) (S : Scheme N n l) (r : Block N l) : Res (Block N l) := do
  let inputSize := r.queued.length
  if inputSize = 0 then
    pure r
  else do
    let live := r.live
    let atDepth ← r.graph.trackLiveStates live inputSize
    let next := atDepth.getLastD []
    let weight ← blockInit r.graph next
    let out := List.replicate r.graph.size (trivialTRLWEZero N)
    let p ← blockPropagateWith pf S r.graph r.queued atDepth (countDown inputSize) weight out r.timer
    let weight := p.1
    let out := p.2.1
    let timer := p.2.2
    if live.length = 1 then do
      let q ← vat live 0
      let w ← vat weight q
      pure { r with live := next, queued := [], selector := some w, timer := timer }
    else do
      let width := Nat.log2 live.length + 1
      let cond : List (Gsw l N) := List.replicate width (fun _ _ _ => 0#64)
      let sel ← (match r.selector with
        | some s => .ok s
        | none => .error .ub : Res (TRLWE N))
      let ws4 := vresize r.ws4 width ⟨fun _ => 0#32, 0#32⟩
      let ws4 ← one (← pf.run (515, 0) ((List.range width).map (extractTask sel)) [ws4])
      let cond ← one (← pf.run (519, 0) ((List.range width).map (cbTask S ws4)) [cond])
      let timer := timer ++ [(.circuitBootstrapping, width)]
      let out ← (List.range live.length).foldlM (fun (out : List (TRLWE N)) i => do
          let q ← vat live i
          let w ← vat weight q
          vset out i w) out
      let sz ← shl1 width
      let weight' := vresize out sz (trivialTRLWEZero N)
      let out' := vresize weight sz (trivialTRLWEZero N)
      let t ← lookupTableTimerWith pf 533 S weight' cond out' timer
      let w ← vat t.1 0
      pure { r with live := next, queued := [], selector := some w, ws4 := ws4, timer := t.2.2 }

/-- `OnlineDFARunner4::result` (src/online_dfa.cpp:392-401). -/
def Block.resultWith (pf : Loops) (S : Scheme N n l) (r : Block N l) : Res (TLWE N × Block N l) := do
  let r ← r.evalQueuedWith pf S
  match r.selector with
  | some s => do
    let c ← sampleExtractAt s 0
    pure (c, r)
  | none => .error .assertFail

/-- `OnlineDFARunner4::eval_one` (src/online_dfa.cpp:403-409). -/
def Block.evalOneWith (pf : Loops) (S : Scheme N n l) (r : Block N l) (input : Gsw l N) : Res (Block N l) :=
  let r := { r with queued := r.queued ++ [input] }
  if r.queued.length < r.queueSize then pure r else r.evalQueuedWith pf S

/-! ## FLUT -/

/-- `OnlineDFARunner3::eval_queued_inputs` (src/online_dfa.cpp:244-373). -/
def Flut.evalQueuedWith (pf : Loops) (S : Scheme N n l) (r : Flut N l) : Res (Flut N l) := do
  let inputSize := r.queued.length
  if inputSize = 0 then
    pure r
  else do
    let memo ← vat r.memo inputSize
    let next ← flutNext r.graph memo r.live inputSize
    let st2idx ← flutIdx r.graph next
    let d ← lutDepths r.maxSecond next.length inputSize
    let first := d.1
    let second := d.2
    let cnt1 ← shl1 first
    let cnt2 ← shl1 second
    let pairs := r.live.flatMap fun st => (List.range cnt2).map fun i => (st, i)
    let p ← two (← pf.run (298, 0) ((List.range cnt1).map fun input1 => fillTask r.graph memo st2idx first next.length input1 pairs)
      [List.replicate cnt1 (trivialTRLWEZero N), r.weight])
    let t1 ← lookupTableWith pf 313 S p.1 (r.queued.take first) []
    let table := vresize t1.1 cnt2 (trivialTRLWEZero N)
    let table ← one (← pf.run (320, 0) ((List.range (cnt2 - 1)).map fun i => rotTask N next.length (i + 1)) [table])
    let t2 ← lookupTableWith pf 324 S table (r.queued.drop first) t1.2
    let numEval := r.numEval + 1
    if r.bootFreq = 0 then throw .ub
    let boot := decide (numEval % r.bootFreq = 0)
    let p ← two (← pf.run (345, 0) (next.map (splitTask S st2idx boot)) [r.weight, t2.1])
    pure { r with weight := p.1, queued := [], live := next, numEval := numEval, first := first, second := second }

/-- `OnlineDFARunner3::result` (src/online_dfa.cpp:166-180). -/
def Flut.resultWith (pf : Loops) (S : Scheme N n l) (r : Flut N l) : Res (TLWE N × Flut N l) := do
  let r ← r.evalQueuedWith pf S
  let acc ← r.live.foldlM (fun (acc : TRLWE N) st => do
      let f ← r.graph.isFinalState st
      if f then do
        let w ← vat r.weight st
        pure (acc.add w)
      else pure acc) (trivialTRLWEZero N)
  let c ← sampleExtractAt acc 0
  pure (c, r)

/-- `OnlineDFARunner3::eval_one` (src/online_dfa.cpp:182-188). -/
def Flut.evalOneWith (pf : Loops) (S : Scheme N n l) (r : Flut N l) (input : Gsw l N) : Res (Flut N l) :=
  let r := { r with queued := r.queued ++ [input] }
  if r.queued.length < r.queueSize then pure r else r.evalQueuedWith pf S

/-! ## The first online runner -/

/-- `OnlineDFARunner::eval_one` (src/online_dfa.cpp:60-89). -/
def Online1.evalOneWith (pf : Loops) (S : Scheme N n l) (r : Online1 N) (input : Gsw l N) : Res (Online1 N) := do
  let out := List.replicate r.weight.length (trivialTRLWEZero N)
  let p ← two (← pf.run (64, 0) (r.graph.allStates.map (online1Task S r.graph input)) [out, r.weight])
  let weight := p.1
  let num := r.numProcessed + 1
  if r.interval = 0 then throw .ub
  if num % r.interval = 0 then do
    let weight ← one (← pf.run (94, 0) ((List.range weight.length).map (bootEighthTask S)) [weight])
    pure { r with weight := weight, numProcessed := num }
  else pure { r with weight := weight, numProcessed := num }

/-! ## The sequential instances -/

theorem Backstream.eval_sequential : Backstream.evalWith .sequential = @Backstream.eval N n l := rfl

theorem lutLoop_sequential (k : Nat) (S : Scheme N n l) (sz : Nat) (cs : List (Gsw l N)) (i : Nat) (tmp table : List (TRLWE N))
    (timer : List (Target × Nat)) : lutLoopWith .sequential k S sz cs i tmp table timer = lutLoop S sz cs i tmp table timer := by
  induction cs generalizing i tmp table timer with
  | nil => rfl
  | cons c cs ih =>
    rw [lutLoopWith, lutLoop]
    simp only [ih]
    rfl

theorem lookupTableTimer_sequential (k : Nat) (S : Scheme N n l) (table : List (TRLWE N)) (cs : List (Gsw l N)) (ws : List (TRLWE N))
    (timer : List (Target × Nat)) : lookupTableTimerWith .sequential k S table cs ws timer = lookupTableTimer S table cs ws timer := by
  unfold lookupTableTimerWith lookupTableTimer
  simp only [lutLoop_sequential]

theorem blockPropagate_sequential (S : Scheme N n l) (g : Graph) (cs : List (Gsw l N)) (atDepth : List (List Nat)) (i : Nat)
    (weight out : List (TRLWE N)) (timer : List (Target × Nat)) :
    blockPropagateWith .sequential S g cs atDepth i weight out timer = blockPropagate S g cs atDepth i weight out timer := by
  induction i generalizing weight out timer with
  | zero => rfl
  | succ i ih =>
    rw [blockPropagateWith, blockPropagate]
    simp only [ih]
    rfl

theorem Block.evalQueued_sequential (S : Scheme N n l) (r : Block N l) : r.evalQueuedWith .sequential S = r.evalQueued S := by
  unfold Block.evalQueuedWith Block.evalQueued
  simp only [blockPropagate_sequential, lookupTableTimer_sequential]
  rfl

theorem Block.evalOne_sequential (S : Scheme N n l) (r : Block N l) (c : Gsw l N) : r.evalOneWith .sequential S c = r.evalOne S c := by
  unfold Block.evalOneWith Block.evalOne
  simp only [Block.evalQueued_sequential]

theorem Block.result_sequential (S : Scheme N n l) (r : Block N l) : r.resultWith .sequential S = r.result S := by
  unfold Block.resultWith Block.result
  rw [Block.evalQueued_sequential]
  rfl

theorem lookupTable_sequential (k : Nat) (S : Scheme N n l) (table : List (TRLWE N)) (cs : List (Gsw l N)) (ws : List (TRLWE N)) :
    lookupTableWith .sequential k S table cs ws = lookupTable S table cs ws := by
  unfold lookupTableWith lookupTable
  rw [lookupTableTimer_sequential]

theorem Flut.evalQueued_sequential (S : Scheme N n l) (r : Flut N l) : r.evalQueuedWith .sequential S = r.evalQueued S := by
  unfold Flut.evalQueuedWith Flut.evalQueued
  simp only [lookupTable_sequential]
  rfl

theorem Flut.evalOne_sequential (S : Scheme N n l) (r : Flut N l) (c : Gsw l N) : r.evalOneWith .sequential S c = r.evalOne S c := by
  unfold Flut.evalOneWith Flut.evalOne
  simp only [Flut.evalQueued_sequential]

theorem Flut.result_sequential (S : Scheme N n l) (r : Flut N l) : r.resultWith .sequential S = r.result S := by
  unfold Flut.resultWith Flut.result
  rw [Flut.evalQueued_sequential]

theorem Online1.evalOne_sequential : Online1.evalOneWith .sequential = @Online1.evalOne N n l := rfl

end Homfa
