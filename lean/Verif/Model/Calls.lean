import Verif.Model.Commands

/-!
# The calls of the TFHE library made by a run

The model of the runners takes the functions of TFHEpp from a `Scheme`.  Here the same code is written once more as a program (`Comp`) that
reaches the library through calls only, so that the calls made by a run, with their arguments, can be listed.  `C69_same_program` shows that
the programs are the commands of Model/Commands.lean.
-/

namespace Homfa

variable {N n l : Nat}

/-- A call of the library by the server: the functions of `Scheme` with their arguments. (src/tfhepp_util.cpp:317-461, src/online_dfa.cpp:348-367) -/
inductive OpCall (N n l : Nat) where
  | cmux (g : Gsw l N) (c1 c0 : TRLWE N)
  | iks (c : TLWE N)
  | blindRotate (c : TLWE n) (tv : Poly N)
  | tlwe2trlwe (c : TLWE N)
  | cb (c : TLWE N)

/-- the type of the result of a call (src/tfhepp_util.cpp:317-461, src/online_dfa.cpp:348-367) -/
abbrev OpCall.Ans : OpCall N n l → Type
  | .cmux .. => TRLWE N
  | .iks _ => TLWE n
  | .blindRotate .. => TRLWE N
  | .tlwe2trlwe _ => TRLWE N
  | .cb _ => Gsw l N

/-- the result of a call (src/tfhepp_util.cpp:317-461, src/online_dfa.cpp:348-367) -/
def OpCall.answer (S : Scheme N n l) : (c : OpCall N n l) → c.Ans
  | .cmux g c1 c0 => S.cmux g c1 c0
  | .iks c => S.iks c
  | .blindRotate c tv => S.blindRotate c tv
  | .tlwe2trlwe c => S.tlwe2trlwe c
  | .cb c => S.cb c

/-- A program that calls the library. (the bodies of the runners: src/online_dfa.cpp, src/backstream_dfa_runner.cpp, src/offline_dfa.cpp) -/
inductive Comp (N n l : Nat) (α : Type) : Type where
  | ret (r : Res α)
  | call (c : OpCall N n l) (k : c.Ans → Comp N n l α)

namespace Comp
variable {α β : Type}

/-- (the bodies of the runners: src/online_dfa.cpp, src/backstream_dfa_runner.cpp, src/offline_dfa.cpp) -/
def bind : Comp N n l α → (α → Comp N n l β) → Comp N n l β
  | .ret (.ok a), f => f a
  | .ret (.error e), _ => .ret (.error e)
  | .call c k, f => .call c fun a => (k a).bind f

instance : Monad (Comp N n l) where
  pure a := .ret (.ok a)
  bind := bind

/-- the result of the program with the library `S`
(the bodies of the runners: src/online_dfa.cpp, src/backstream_dfa_runner.cpp, src/offline_dfa.cpp) -/
def run (S : Scheme N n l) : Comp N n l α → Res α
  | .ret r => r
  | .call c k => (k (c.answer S)).run S

/-- the calls it makes, in order (the bodies of the runners: src/online_dfa.cpp, src/backstream_dfa_runner.cpp, src/offline_dfa.cpp) -/
def trace (S : Scheme N n l) : Comp N n l α → List (OpCall N n l)
  | .ret _ => []
  | .call c k => c :: (k (c.answer S)).trace S

end Comp

/-- one call (the bodies of the runners: src/online_dfa.cpp, src/backstream_dfa_runner.cpp, src/offline_dfa.cpp) -/
def ask (c : OpCall N n l) : Comp N n l c.Ans := .call c fun a => .ret (.ok a)

/-- `TFHEpp::CMUXFFT` (src/online_dfa.cpp:207) -/
def cmuxC (g : Gsw l N) (c1 c0 : TRLWE N) : Comp N n l (TRLWE N) := ask (.cmux g c1 c0)
/-- `TFHEpp::IdentityKeySwitch` (src/tfhepp_util.cpp:322) -/
def iksC (c : TLWE N) : Comp N n l (TLWE n) := ask (.iks c)
/-- `TFHEpp::BlindRotate` (src/tfhepp_util.cpp:324) -/
def blindRotateC (c : TLWE n) (tv : Poly N) : Comp N n l (TRLWE N) := ask (.blindRotate c tv)
/-- `TFHEpp::TLWE2TRLWEIKS` (src/online_dfa.cpp:363) -/
def tlwe2trlweC (c : TLWE N) : Comp N n l (TRLWE N) := ask (.tlwe2trlwe c)
/-- circuit bootstrapping (src/tfhepp_util.cpp:444-449) -/
def cbC (c : TLWE N) : Comp N n l (Gsw l N) := ask (.cb c)

/-! ## Bootstrapping (src/tfhepp_util.cpp) -/

/-- `BS_TLWE_0_1o2_to_TRLWE_0_1o2` (src/tfhepp_util.cpp:332-344) -/
def bsHalfToHalfC (src : TLWE n) : Comp N n l (TRLWE N) := do
  let out ← blindRotateC { src with b := src.b - mu4 } (muPoly N mu4)
  pure { out with b := fun i => if i.val = 0 then out.b i + mu4 else out.b i }

/-- `do_SEI_IKS_GBTLWE2TRLWE_2` (src/tfhepp_util.cpp:363-374) -/
def bootHalfC (w : TRLWE N) : Comp N n l (TRLWE N) := do
  let tlwel1 ← .ret (sampleExtractAt w 0)
  let tlwel0 ← iksC tlwel1
  bsHalfToHalfC tlwel0

/-! ## OFFLINE and REVERSE -/

/-- One task of the CMUX loop (src/backstream_dfa_runner.cpp:60-67). -/
def backstreamTaskC (graph : Graph) (input : Gsw l N) (m : Mem (TRLWE N)) (q : Nat) : Comp N n l (Mem (TRLWE N)) := do
  let q0 ← .ret (graph.nextState q false)
  let q1 ← .ret (graph.nextState q true)
  let w0 ← .ret (mread m 1 q0)
  let w1 ← .ret (mread m 1 q1)
  let c ← cmuxC input w1 w0
  .ret (mwrite m 0 q c)

/-- One task of the bootstrapping loop (src/backstream_dfa_runner.cpp:86-90). -/
def bootTaskC (m : Mem (TRLWE N)) (q : Nat) : Comp N n l (Mem (TRLWE N)) := do
  let w ← .ret (mread m 0 q)
  let w ← bootHalfC w
  .ret (mwrite m 0 q w)

/-- `BackstreamDFARunner::bootstrap_weight` (src/backstream_dfa_runner.cpp:81-92). -/
def Backstream.bootstrapWeightC (r : Backstream N) (targets : List Nat) : Comp N n l (Backstream N) := do
  let m ← targets.foldlM bootTaskC [r.weight]
  let weight ← .ret (one m)
  pure { r with weight := weight, timer := r.timer ++ [(.bootstrapping, targets.length)] }

/-- `BackstreamDFARunner::eval` (src/backstream_dfa_runner.cpp:44-79). -/
def Backstream.evalC (r : Backstream N) (input : Gsw l N) : Comp N n l (Backstream N) := do
  let out := vresize r.workspace r.graph.size (trivialTRLWEZero N)
  let states ← .ret (evalStates r.graph r.inputSize r.numProcessed)
  let m ← states.foldlM (backstreamTaskC r.graph input) [out, r.weight]
  let p ← .ret (two m)
  let r := { r with weight := p.1, workspace := p.2, timer := r.timer ++ [(.cmux, states.length)],
                    numProcessed := r.numProcessed + 1 }
  if r.bootInterval = 0 then .ret (.error .ub)
  else if r.numProcessed % r.bootInterval = 0 then r.bootstrapWeightC states else pure r

/-- `do_run_offline` (src/main.cpp:253-285) -/
def doRunOfflineC (spec : List Char) (size : Nat) (cs : List (Gsw l N)) (bootFreq : Nat) (sanitize : Bool) : Comp N n l (TLWE N) := do
  let g ← .ret (Graph.fromIstream spec)
  let g ← .ret g.minimized
  let runner ← .ret (offlineMake g size bootFreq true sanitize)
  let _total ← .ret (runner.totalCmux size)
  let runner ← cs.foldlM Backstream.evalC runner
  .ret runner.result

/-- The loop of the online commands (src/main.cpp:348-357, 416-425). -/
def onlineLoopC {ρ : Type} (evalOne : ρ → Gsw l N → Comp N n l ρ) (result : ρ → Comp N n l (TLWE N × ρ)) (outDir : Option String)
    (outFreq : Nat) : List (Gsw l N) → Nat → ρ → Comp N n l (List (OutFile × TLWE N) × ρ)
  | [], _, r => pure ([], r)
  | c :: cs, i, r => do
    let r ← evalOne r c
    match outDir with
    | none => onlineLoopC evalOne result outDir outFreq cs (i + 1) r
    | some dir =>
      if outFreq = 0 then .ret (.error .ub)
      else if i % outFreq = outFreq - 1 then do
        let p ← result r
        let q ← onlineLoopC evalOne result outDir outFreq cs (i + 1) p.2
        pure ((.inDir dir (i + 1), p.1) :: q.1, q.2)
      else onlineLoopC evalOne result outDir outFreq cs (i + 1) r

/-- `do_run_reverse` (src/main.cpp:314-366) -/
def doRunReverseC (spec : List Char) (hidden : Nat) (cs : List (Gsw l N)) (outFile outDir : Option String)
    (outFreq bootFreq : Nat) (isSpecReversed sanitize : Bool) : Comp N n l (List (OutFile × TLWE N)) := do
  let _ ← .ret (cassert ((outFile.isSome && !outDir.isSome) || (!outFile.isSome && outDir.isSome)))
  let g ← .ret (Graph.fromIstream spec)
  let runner ← .ret (reverseMake g bootFreq isSpecReversed true sanitize)
  let p ← onlineLoopC Backstream.evalC (fun r => do let c ← .ret r.result; pure (c, r)) outDir outFreq cs 0 runner
  let f ← .ret (lastOut outFile outDir hidden)
  let c ← .ret p.2.result
  pure (p.1 ++ [(f, c)])

/-! ## Lookup tables (src/online_dfa.cpp:190-242) -/

/-- One task of a CMUX layer (src/online_dfa.cpp:207-209). -/
def lutTaskC (input : Gsw l N) (m : Mem (TRLWE N)) (j : Nat) : Comp N n l (Mem (TRLWE N)) := do
  let c1 ← .ret (mread m 1 (j * 2 + 1))
  let c0 ← .ret (mread m 1 (j * 2))
  let c ← cmuxC input c1 c0
  .ret (mwrite m 0 j c)

/-- The loop over the inputs (src/online_dfa.cpp:204-212, 228-241). -/
def lutLoopC (inputSize : Nat) : List (Gsw l N) → Nat → List (TRLWE N) → List (TRLWE N) →
    List (Target × Nat) → Comp N n l (List (TRLWE N) × List (TRLWE N) × List (Target × Nat))
  | [], _, tmp, table, timer => pure (tmp, table, timer)
  | c :: rest, i, tmp, table, timer => do
    let cnt ← .ret (shl1 (inputSize - i - 1))
    let m ← (List.range cnt).foldlM (lutTaskC c) [tmp, table]
    let p ← .ret (two m)
    lutLoopC inputSize rest (i + 1) p.2 p.1 (timer ++ [(.cmux, cnt)])

/-- `lookup_table_with_timer` (src/online_dfa.cpp:215-242) -/
def lookupTableTimerC (table : List (TRLWE N)) (inputs : List (Gsw l N)) (workspace : List (TRLWE N))
    (timer : List (Target × Nat)) : Comp N n l (List (TRLWE N) × List (TRLWE N) × List (Target × Nat)) := do
  let inputSize := inputs.length
  let sz ← .ret (shl1 inputSize)
  let _ ← .ret (cassert (decide (table.length = sz)))
  if inputSize = 0 then
    pure (table, workspace, timer)
  else do
    let half ← .ret (shl1 (inputSize - 1))
    let tmp := List.replicate half (trivialTRLWEZero N)
    let r ← lutLoopC inputSize inputs 0 tmp table timer
    pure (r.2.1, r.1, r.2.2)

/-- `lookup_table` (src/online_dfa.cpp:190-213) -/
def lookupTableC (table : List (TRLWE N)) (inputs : List (Gsw l N)) (workspace : List (TRLWE N)) :
    Comp N n l (List (TRLWE N) × List (TRLWE N)) := do
  let r ← lookupTableTimerC table inputs workspace []
  pure (r.1, r.2.1)

/-! ## BLOCK -/

/-- One task of the propagation loop (src/online_dfa.cpp:482-491). -/
def blockTaskC (graph : Graph) (queued : List (Gsw l N)) (i : Nat) (m : Mem (TRLWE N)) (q : Nat) : Comp N n l (Mem (TRLWE N)) := do
  let q0 ← .ret (graph.nextState q false)
  let q1 ← .ret (graph.nextState q true)
  let w0 ← .ret (mread m 1 q0)
  let w1 ← .ret (mread m 1 q1)
  let g ← .ret (vat queued i)
  let c ← cmuxC g w1 w0
  .ret (mwrite m 0 q c)

/-- "Propagate weight from back to front" (src/online_dfa.cpp:476-496) -/
def blockPropagateC (graph : Graph) (queued : List (Gsw l N)) (atDepth : List (List Nat)) :
    Nat → List (TRLWE N) → List (TRLWE N) → List (Target × Nat) →
    Comp N n l (List (TRLWE N) × List (TRLWE N) × List (Target × Nat))
  | 0, weight, out, timer => pure (weight, out, timer)
  | i + 1, weight, out, timer => do
    let states ← .ret (vat atDepth i)
    let m ← states.foldlM (blockTaskC graph queued i) [out, weight]
    let p ← .ret (two m)
    blockPropagateC graph queued atDepth i p.1 p.2 (timer ++ [(.cmux, states.length)])

/-- One task of the circuit bootstrapping loop (src/online_dfa.cpp:518-521). -/
def cbTaskC (ws4 : List (TLWE N)) (m : Mem (Gsw l N)) (i : Nat) : Comp N n l (Mem (Gsw l N)) := do
  let c ← .ret (vat ws4 i)
  let g ← cbC c
  .ret (mwrite m 0 i g)

/-- `OnlineDFARunner4::eval_queued_inputs` (src/online_dfa.cpp:411-535) -/
def Block.evalQueuedC (r : Block N l) : Comp N n l (Block N l) := do
  let inputSize := r.queued.length
  if inputSize = 0 then
    pure r
  else do
    let live := r.live
    let atDepth ← .ret (r.graph.trackLiveStates live inputSize)
    let next := atDepth.getLastD []
    let weight ← .ret (blockInit r.graph next)
    let out := List.replicate r.graph.size (trivialTRLWEZero N)
    let p ← blockPropagateC r.graph r.queued atDepth (countDown inputSize) weight out r.timer
    let weight := p.1
    let out := p.2.1
    let timer := p.2.2
    if live.length = 1 then do
      let q ← .ret (vat live 0)
      let w ← .ret (vat weight q)
      pure { r with live := next, queued := [], selector := some w, timer := timer }
    else do
      let width := Nat.log2 live.length + 1
      let cond : List (Gsw l N) := List.replicate width (fun _ _ _ => 0#64)
      let sel ← .ret (match r.selector with
        | some s => .ok s
        | none => .error .ub : Res (TRLWE N))
      let ws4 := vresize r.ws4 width ⟨fun _ => 0#32, 0#32⟩
      let ws4 ← .ret (parFor ((List.range width).map (extractTask sel)) [ws4] >>= one)
      let m ← (List.range width).foldlM (cbTaskC ws4) [cond]
      let cond ← .ret (one m)
      let timer := timer ++ [(.circuitBootstrapping, width)]
      let out ← .ret ((List.range live.length).foldlM (fun (out : List (TRLWE N)) i => do
          let q ← vat live i
          let w ← vat weight q
          vset out i w) out)
      let sz ← .ret (shl1 width)
      let weight' := vresize out sz (trivialTRLWEZero N)
      let out' := vresize weight sz (trivialTRLWEZero N)
      let t ← lookupTableTimerC weight' cond out' timer
      let w ← .ret (vat t.1 0)
      pure { r with live := next, queued := [], selector := some w, ws4 := ws4, timer := t.2.2 }

/-- `OnlineDFARunner4::result` (src/online_dfa.cpp:392-401) -/
def Block.resultC (r : Block N l) : Comp N n l (TLWE N × Block N l) := do
  let r ← r.evalQueuedC
  match r.selector with
  | some s => do
    let c ← .ret (sampleExtractAt s 0)
    pure (c, r)
  | none => .ret (.error .assertFail)

/-- `OnlineDFARunner4::eval_one` (src/online_dfa.cpp:403-409) -/
def Block.evalOneC (r : Block N l) (input : Gsw l N) : Comp N n l (Block N l) :=
  let r := { r with queued := r.queued ++ [input] }
  if r.queued.length < r.queueSize then pure r else r.evalQueuedC

/-- `do_run_block` (src/main.cpp:436-464) -/
def doRunBlockC (spec : List Char) (cs : List (Gsw l N)) (queueSize : Nat) (sanitize : Bool) : Comp N n l (TLWE N) := do
  let g ← .ret (Graph.fromIstream spec)
  let runner ← .ret (Block.make g queueSize sanitize)
  let runner ← cs.foldlM Block.evalOneC runner
  let c ← runner.resultC
  pure c.1

/-! ## FLUT -/

/-- One task of the last loop (src/online_dfa.cpp:347-366). -/
def splitTaskC (st2idx : List Nat) (boot : Bool) (m : Mem (TRLWE N)) (st : Nat) : Comp N n l (Mem (TRLWE N)) := do
  let nextTrlwe ← .ret (mread m 1 0)
  let idx ← .ret (vat st2idx st)
  let t ← .ret (sampleExtractAt nextTrlwe idx)
  let t ← (if boot then do
      let c ← iksC t
      let w ← bsHalfToHalfC c
      .ret (sampleExtractAt w 0)
    else pure t : Comp N n l (TLWE N))
  let c ← tlwe2trlweC t
  .ret (mwrite m 0 st c)

/-- `OnlineDFARunner3::eval_queued_inputs` (src/online_dfa.cpp:244-373) -/
def Flut.evalQueuedC (r : Flut N l) : Comp N n l (Flut N l) := do
  let inputSize := r.queued.length
  if inputSize = 0 then
    pure r
  else do
    let memo ← .ret (vat r.memo inputSize)
    let next ← .ret (flutNext r.graph memo r.live inputSize)
    let st2idx ← .ret (flutIdx r.graph next)
    let d ← .ret (lutDepths r.maxSecond next.length inputSize)
    let first := d.1
    let second := d.2
    let cnt1 ← .ret (shl1 first)
    let cnt2 ← .ret (shl1 second)
    let pairs := r.live.flatMap fun st => (List.range cnt2).map fun i => (st, i)
    let p ← .ret (parFor ((List.range cnt1).map fun input1 => fillTask r.graph memo st2idx first next.length input1 pairs)
      [List.replicate cnt1 (trivialTRLWEZero N), r.weight] >>= two)
    let t1 ← lookupTableC p.1 (r.queued.take first) []
    let table := vresize t1.1 cnt2 (trivialTRLWEZero N)
    let table ← .ret (parFor ((List.range (cnt2 - 1)).map fun i => rotTask N next.length (i + 1)) [table] >>= one)
    let t2 ← lookupTableC table (r.queued.drop first) t1.2
    let numEval := r.numEval + 1
    if r.bootFreq = 0 then .ret (.error .ub)
    else do
      let boot := decide (numEval % r.bootFreq = 0)
      let m ← next.foldlM (splitTaskC st2idx boot) [r.weight, t2.1]
      let p ← .ret (two m)
      pure { r with weight := p.1, queued := [], live := next, numEval := numEval, first := first, second := second }

/-- `OnlineDFARunner3::result` (src/online_dfa.cpp:166-180) -/
def Flut.resultC (r : Flut N l) : Comp N n l (TLWE N × Flut N l) := do
  let r ← r.evalQueuedC
  let acc ← .ret (r.live.foldlM (fun (acc : TRLWE N) st => do
      let f ← r.graph.isFinalState st
      if f then do
        let w ← vat r.weight st
        pure (acc.add w)
      else pure acc) (trivialTRLWEZero N))
  let c ← .ret (sampleExtractAt acc 0)
  pure (c, r)

/-- `OnlineDFARunner3::eval_one` (src/online_dfa.cpp:182-188) -/
def Flut.evalOneC (r : Flut N l) (input : Gsw l N) : Comp N n l (Flut N l) :=
  let r := { r with queued := r.queued ++ [input] }
  if r.queued.length < r.queueSize then pure r else r.evalQueuedC

/-- `do_run_flut` (src/main.cpp:368-434) -/
def doRunFlutC (spec : List Char) (hidden : Nat) (cs : List (Gsw l N)) (outFile outDir : Option String)
    (outFreq queueSize bootFreq : Nat) (maxSecond : Option Nat) (sanitize : Bool) : Comp N n l (List (OutFile × TLWE N)) := do
  let g ← .ret (Graph.fromIstream spec)
  let runner ← .ret (Flut.make g (maxSecond.getD 8) queueSize bootFreq sanitize)
  if outDir.isSome ∧ queueSize = 0 then .ret (.error .ub)
  else do
    let p ← onlineLoopC Flut.evalOneC Flut.resultC outDir outFreq cs 0 runner
    let f ← .ret (lastOut outFile outDir hidden)
    let c ← p.2.resultC
    pure (p.1 ++ [(f, c.1)])

end Homfa
