import Verif.Model.Counter

/-!
# The calls of the TFHE library made by the BTT runner (src/counter.cpp)

The code of Model/Counter.lean that reaches the library, written once more as a program (`GComp`) that calls it, as in Model/Calls.lean.
`C102_same_program` shows that the program is the runner of Model/Counter.lean.  As there, the calls of a parallel loop are listed in the order of
its tasks.
-/

namespace Homfa

variable {N n l : Nat}

/-- A call of the library by counter.cpp.  `HomNOT` and `trivial*` are linear and make no call. -/
inductive GateCall (N n l : Nat) where
  | cmux (g : Gsw l N) (c1 c0 : TRLWE N)
  | iks (c : TLWE N)
  | homXor (x y : TLWE n)
  | homOR (x y : TLWE n)
  | homANDNY (x y : TLWE n)
  | cb01 (c : TLWE n)

/-- the type of the result of a call (the bodies of src/counter.cpp:161-594) -/
abbrev GateCall.Ans : GateCall N n l → Type
  | .cmux .. => TRLWE N
  | .iks _ => TLWE n
  | .homXor .. => TRLWE N
  | .homOR .. => TLWE n
  | .homANDNY .. => TLWE n
  | .cb01 _ => Gsw l N

/-- the result of a call (the bodies of src/counter.cpp:161-594) -/
def GateCall.answer (S : GateScheme N n l) : (c : GateCall N n l) → c.Ans
  | .cmux g c1 c0 => S.cmux g c1 c0
  | .iks c => S.iks c
  | .homXor x y => S.homXor x y
  | .homOR x y => S.homOR x y
  | .homANDNY x y => S.homANDNY x y
  | .cb01 c => S.cb01 c

/-- A program that calls the library. (the bodies of src/counter.cpp:161-594) -/
inductive GComp (N n l : Nat) (α : Type) : Type where
  | ret (r : Res α)
  | call (c : GateCall N n l) (k : c.Ans → GComp N n l α)

namespace GComp
variable {α β : Type}

/-- (the bodies of src/counter.cpp:161-594) -/
def bind : GComp N n l α → (α → GComp N n l β) → GComp N n l β
  | .ret (.ok a), f => f a
  | .ret (.error e), _ => .ret (.error e)
  | .call c k, f => .call c fun a => (k a).bind f

instance : Monad (GComp N n l) where
  pure a := .ret (.ok a)
  bind := bind

/-- the result of the program with the library `S` (the bodies of src/counter.cpp:161-594) -/
def run (S : GateScheme N n l) : GComp N n l α → Res α
  | .ret r => r
  | .call c k => (k (c.answer S)).run S

/-- the calls it makes, in order (the bodies of src/counter.cpp:161-594) -/
def trace (S : GateScheme N n l) : GComp N n l α → List (GateCall N n l)
  | .ret _ => []
  | .call c k => c :: (k (c.answer S)).trace S

end GComp

/-- one call (the bodies of src/counter.cpp:161-594) -/
def gask (c : GateCall N n l) : GComp N n l c.Ans := .call c fun a => .ret (.ok a)

/-- `TFHEpp::CMUXFFT` (src/counter.cpp:221) -/
def gcmux (g : Gsw l N) (c1 c0 : TRLWE N) : GComp N n l (TRLWE N) := gask (.cmux g c1 c0)
/-- `TFHEpp::IdentityKeySwitch` (src/counter.cpp:176) -/
def giks (c : TLWE N) : GComp N n l (TLWE n) := gask (.iks c)
/-- `HomXORwoSE` (src/tfhepp_util.cpp:451-461): one blind rotation -/
def gxor (x y : TLWE n) : GComp N n l (TRLWE N) := gask (.homXor x y)
/-- `TFHEpp::HomOR` (src/counter.cpp:169) -/
def gor (x y : TLWE n) : GComp N n l (TLWE n) := gask (.homOR x y)
/-- `TFHEpp::HomANDNY` (src/counter.cpp:196) -/
def gandny (x y : TLWE n) : GComp N n l (TLWE n) := gask (.homANDNY x y)
/-- `CircuitBootstrappingFFTLvl01` (src/counter.cpp:314) -/
def gcb (c : TLWE n) : GComp N n l (Gsw l N) := gask (.cb01 c)

/-- a loop that collects its results (src/counter.cpp:304-333) -/
def gmap {α β : Type} (f : α → GComp N n l β) : List α → GComp N n l (List β)
  | [] => pure []
  | x :: xs => do
    let y ← f x
    let ys ← gmap f xs
    pure (y :: ys)

/-! ## `Counter` -/

/-- The level 0 ciphertext of a bit (src/counter.cpp:172-177, 191-194). -/
def bitToLvl0C (c : TRLWE N) : GComp N n l (TLWE n) := do
  let t1 ← .ret (sampleExtractAt c 0)
  giks t1

/-- the reduction of `Counter::is_zero` (src/counter.cpp:165-178) -/
def RedTree.evalC (vals : List (TLWE n)) : RedTree → GComp N n l (TLWE n)
  | .leaf i => .ret (vat vals i)
  | .node a b => do
    let x ← a.evalC vals
    let y ← b.evalC vals
    gor x y

/-- `Counter::is_zero` (src/counter.cpp:161-181). -/
def Counter.isZeroC (ctr : Counter N) (tree : RedTree) : GComp N n l (TLWE n) := do
  let ts ← gmap bitToLvl0C ctr.c
  let out ← tree.evalC (trivialTLWEMinus8 n :: ts)
  pure (homNOT out)

/-- One iteration of the first loop of `minus_one` (src/counter.cpp:189-197). -/
def borrowC (ctr : Counter N) (p : List (TLWE n) × TLWE n) (i : Nat) : GComp N n l (List (TLWE n) × TLWE n) := do
  let ci ← .ret (vat ctr.c i)
  let t0 ← bitToLvl0C ci
  let b ← gandny t0 p.2
  pure (p.1 ++ [t0, p.2], b)

/-- One task of the second loop of `minus_one` (src/counter.cpp:199-201). -/
def minusTaskC (memo : List (TLWE n)) (m : Mem (TRLWE N)) (i : Nat) : GComp N n l (Mem (TRLWE N)) := do
  let x ← .ret (vat memo (i * 2))
  let y ← .ret (vat memo (i * 2 + 1))
  let c ← gxor x y
  .ret (mwrite m 0 i c)

/-- `Counter::minus_one` (src/counter.cpp:183-202). -/
def Counter.minusOneC (ctr : Counter N) (borrow : TLWE n) : GComp N n l (Counter N) := do
  let p ← (List.range ctr.width).foldlM (borrowC ctr) ([], borrow)
  let m ← (List.range ctr.width).foldlM (minusTaskC p.1) [ctr.c]
  let c ← .ret (one m)
  pure { ctr with c := c }

/-- One iteration of `Counter::cmux` (src/counter.cpp:220-223). -/
def ctrCmuxStepC (sel : Gsw l N) (in1 in0 : Counter N) (c : List (TRLWE N)) (i : Nat) : GComp N n l (List (TRLWE N)) := do
  let a ← .ret (vat in1.c i)
  let b ← .ret (vat in0.c i)
  let x ← gcmux sel a b
  .ret (vset c i x)

/-- `Counter::cmux` (src/counter.cpp:215-224). -/
def Counter.cmuxC (out : Counter N) (sel : Gsw l N) (in1 in0 : Counter N) : GComp N n l (Counter N) := do
  let _ ← .ret (cassert (decide (out.c.length = in1.c.length)))
  let _ ← .ret (cassert (decide (out.c.length = in0.c.length)))
  let c ← (List.range out.c.length).foldlM (ctrCmuxStepC sel in1 in0) out.c
  pure { out with c := c }

/-! ## `Weight` -/

/-- `Weight::get_counter_condition` (src/counter.cpp:304-316). -/
def Weight.conditionsC (w : Weight N) (trees : Nat → RedTree) : GComp N n l (List (Gsw l N)) :=
  gmap (fun i => do
    let c ← .ret (vat w.counter i)
    let t ← c.isZeroC (trees i)
    gcb t) (List.range w.counter.length)

/-- `Weight::get_selectors` (src/counter.cpp:318-333). -/
def Weight.selectorsC (w : Weight N) (k : Nat) : GComp N n l (List (Gsw l N)) :=
  gmap (fun i => do
    let t1 ← .ret (sampleExtractAt w.general (i + 1))
    let t0 ← giks t1
    gcb t0) (List.range k)

/-- One task of `Weight::update_counters` (src/counter.cpp:339-346). -/
def updateTaskC (general : TRLWE N) (m : Mem (Counter N)) (i : Nat) : GComp N n l (Mem (Counter N)) := do
  let t1 ← .ret (sampleExtractAt general (N / 2 + i))
  let c ← .ret (mread m 0 i)
  let t0 ← giks t1
  let c ← c.minusOneC t0
  .ret (mwrite m 0 i c)

/-- `Weight::update_counters` (src/counter.cpp:336-347). -/
def Weight.updateCountersC (w : Weight N) : GComp N n l (Weight N) := do
  let m ← (List.range w.counter.length).foldlM (updateTaskC w.general) [w.counter]
  let cs ← .ret (one m)
  pure { w with counter := cs }

/-- One iteration of `Weight::cmux` (src/counter.cpp:379-382). -/
def weightCmuxStepC (sel : Gsw l N) (in1 in0 : Weight N) (cs : List (Counter N)) (i : Nat) : GComp N n l (List (Counter N)) := do
  let o ← .ret (vat cs i)
  let a ← .ret (vat in1.counter i)
  let b ← .ret (vat in0.counter i)
  let c ← o.cmuxC sel a b
  .ret (vset cs i c)

/-- `Weight::cmux` (src/counter.cpp:373-383). -/
def Weight.cmuxC (out : Weight N) (sel : Gsw l N) (in1 in0 : Weight N) : GComp N n l (Weight N) := do
  let _ ← .ret (cassert (decide (out.counter.length = in1.counter.length)))
  let _ ← .ret (cassert (decide (out.counter.length = in0.counter.length)))
  let g ← gcmux sel in1.general in0.general
  let cs ← (List.range out.counter.length).foldlM (weightCmuxStepC sel in1 in0) out.counter
  pure { general := g, counter := cs }

/-- One task of a layer of `lookup_table` (src/counter.cpp:416-418). -/
def wlutTaskC (input : Gsw l N) (m : Mem (Weight N)) (j : Nat) : GComp N n l (Mem (Weight N)) := do
  let o ← .ret (mread m 0 j)
  let c1 ← .ret (mread m 1 (j * 2 + 1))
  let c0 ← .ret (mread m 1 (j * 2))
  let c ← o.cmuxC input c1 c0
  .ret (mwrite m 0 j c)

/-- The loop of `lookup_table` (src/counter.cpp:414-420). -/
def wlutLoopC (inputSize : Nat) : List (Gsw l N) → Nat → List (Weight N) → List (Weight N) →
    GComp N n l (List (Weight N) × List (Weight N))
  | [], _, tmp, table => pure (tmp, table)
  | c :: rest, i, tmp, table => do
    let cnt ← .ret (shl1 (inputSize - i - 1))
    let m ← (List.range cnt).foldlM (wlutTaskC c) [tmp, table]
    let p ← .ret (two m)
    wlutLoopC inputSize rest (i + 1) p.2 p.1

/-- `lookup_table` (src/counter.cpp:400-421). -/
def wlookupTableC (table : List (Weight N)) (inputs : List (Gsw l N)) : GComp N n l (List (Weight N)) := do
  let sz ← .ret (shl1 inputs.length)
  let _ ← .ret (cassert (decide (table.length = sz)))
  if inputs.length = 0 then
    pure table
  else do
    let half ← .ret (shl1 (inputs.length - 1))
    let d ← .ret (vat table 0)
    let r ← wlutLoopC inputs.length inputs 0 (List.replicate half d) table
    pure r.2

/-! ## `BTTRunner` -/

/-- One task of `eval_block_cmuxs` (src/counter.cpp:517-526). -/
def bttTaskC (btt : Btt) (state : Weight N) (input : Gsw l N) (m : Mem (Option (Weight N))) (q : Nat) :
    GComp N n l (Mem (Option (Weight N))) := do
  let e ← .ret (btt.getEdge q)
  let w0 ← .ret (mread m 1 e.1.dst)
  let in0 ← .ret (do let w ← optValue w0; alterWeight w e.1.accept e.1.reset e.1.inc)
  let w1 ← .ret (mread m 1 e.2.dst)
  let in1 ← .ret (do let w ← optValue w1; alterWeight w e.2.accept e.2.reset e.2.inc)
  let o ← .ret (Weight.fromSrc 0#64 state)
  let out ← o.cmuxC input in1 in0
  .ret (mwrite m 0 q (some out))

/-- `BTTRunner::eval_block_cmuxs` (src/counter.cpp:507-529). -/
def bttBlockC (btt : Btt) (state : Weight N) (inputs : List (Gsw l N)) (atDepth : List (List Nat)) :
    Nat → List (Option (Weight N)) → List (Option (Weight N)) → GComp N n l (List (Option (Weight N)))
  | 0, weight, _ => pure weight
  | i + 1, weight, temp => do
    let input ← .ret (vat inputs i)
    let states ← .ret (vat atDepth i)
    let m ← states.foldlM (bttTaskC btt state input) [temp, weight]
    let p ← .ret (two m)
    bttBlockC btt state inputs atDepth i p.1 p.2

/-- The selection of the candidate (src/counter.cpp:572-590). -/
def bttSelectC (state : Weight N) (live : List Nat) (weight : List (Option (Weight N))) : GComp N n l (Weight N) :=
  if live.length = 1 then do
    let w ← .ret (vat weight 0)
    .ret (optValue w)
  else do
    let width := Nat.clog 2 live.length
    let selectors ← state.selectorsC width
    let cand ← .ret ((List.range live.length).mapM fun i => do
      let q ← vat live i
      let w ← vat weight q
      optValue w)
    let sz ← .ret (shl1 width)
    let d ← .ret (Weight.fromSrc 0#64 state)
    let t ← wlookupTableC (vresize cand sz d) selectors
    .ret (vat t 0)

/-- `BTTRunner::eval_queued_inputs` (src/counter.cpp:531-594). -/
def BttRunner.evalQueuedC (r : BttRunner N l) (trees : Nat → RedTree) : GComp N n l (BttRunner N l) :=
  if r.queued.length = 0 then pure r
  else do
    let conds ← r.state.conditionsC trees
    let inputs := conds ++ r.queued
    let atDepth ← .ret (r.graph.trackLiveStates r.live inputs.length)
    let next := atDepth.getLastD []
    let weight ← .ret (bttInit r.graph r.btt r.state next)
    let weight ← bttBlockC r.btt r.state inputs atDepth inputs.length weight (List.replicate r.btt.size none)
    let st ← bttSelectC r.state r.live weight
    let st ← st.updateCountersC
    pure { r with queued := [], live := next, state := st }

/-- `BTTRunner::result` (src/counter.cpp:481-487). -/
def BttRunner.resultC (r : BttRunner N l) (trees : Nat → RedTree) : GComp N n l (TLWE N × BttRunner N l) := do
  let r ← r.evalQueuedC trees
  let c ← .ret r.state.getAccept
  pure (c, r)

/-- `BTTRunner::eval_one` (src/counter.cpp:489-495). -/
def BttRunner.evalOneC (r : BttRunner N l) (input : Gsw l N) (trees : Nat → RedTree) : GComp N n l (BttRunner N l) :=
  let r := { r with queued := r.queued ++ [input] }
  if r.queued.length < r.queueSize then pure r else r.evalQueuedC trees

end Homfa
