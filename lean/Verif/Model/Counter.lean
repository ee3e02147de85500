import Verif.Model.Lut
import Mathlib.Data.Nat.Log

/-!
# Counters and binarized temporal testers (src/counter.cpp)

counter.cpp is built only with `HOMFA_BUILD_COUNTER`.  It is written against an older TFHEpp (`GateKey`, `HomOR`, `HomANDNY` on level 0,
`CircuitBootstrappingFFTLvl01`); those operations are fields of `GateScheme`.

`std::transform_reduce` with a parallel policy combines the values in an unspecified order and grouping: the model takes the
tree it uses as an argument (`RedTree`).  `std::ceil(std::log2(x))` is `Nat.clog 2 x`; the double computation is exact enough for the sizes
that fit in memory.  Parallel loops are `parFor` (Model/Par.lean).
-/

namespace Homfa

variable {N n l : Nat}

/-- The operations of the older TFHEpp that only counter.cpp uses. -/
structure GateScheme (N n l : Nat) extends Scheme N n l where
  /-- `TFHEpp::HomOR(out, a, b, gate_key)` -/
  homOR : TLWE n → TLWE n → TLWE n
  /-- `TFHEpp::HomANDNY(out, a, b, gate_key)`: not `a` and `b` -/
  homANDNY : TLWE n → TLWE n → TLWE n
  /-- `CircuitBootstrappingFFTLvl01` -/
  cb01 : TLWE n → Gsw l N

/-- `TFHEpp::HomNOT` (src/counter.cpp:180) -/
def homNOT (c : TLWE n) : TLWE n := ⟨fun i => -c.a i, -c.b⟩

/-- The order in which `std::transform_reduce` combines its operands; operand 0 is the initial value. (src/counter.cpp:165-179) -/
inductive RedTree where
  | leaf (i : Nat)
  | node (a b : RedTree)

/-- operands in the order of their use (src/counter.cpp:165-179) -/
def RedTree.leaves : RedTree → List Nat
  | .leaf i => [i]
  | .node a b => a.leaves ++ b.leaves

/-- the value of a reduction (src/counter.cpp:165-179) -/
def RedTree.eval {α : Type} (op : α → α → α) (vals : List α) : RedTree → Res α
  | .leaf i => vat vals i
  | .node a b => do
    let x ← a.eval op vals
    let y ← b.eval op vals
    pure (op x y)

/-! ## `class BTT` (src/counter.cpp:49-134) -/

/-- `BTT::Edge` (src/counter.cpp:56-74).  `State` is `int`; negative numbers are not modelled.  `check` is never read. -/
structure BttEdge where
  src : Nat
  input : Bool
  dst : Nat
  accept : Bool
  reset : List Nat
  inc : List Nat
  check : Option Nat
  deriving DecidableEq

/-- `BTT` (src/counter.cpp:78-80).  A counter specification is (bit width, initial value). -/
structure Btt where
  delta : List BttEdge
  counters : List (Nat × BitVec 64)

/-- The constructor (src/counter.cpp:111-122). -/
def Btt.make (initState : Nat) (delta : List BttEdge) (counters : List (Nat × BitVec 64)) : Res Btt := do
  cassert (decide (initState = 0))
  cassert (decide (delta.length % 2 = 0))
  (List.range delta.length).foldlM (fun (_ : Unit) i => do
    let e ← vat delta i
    cassert (decide (e.src = i / 2))
    cassert (e.input == decide (i % 2 ≠ 0))) ()
  pure { delta := delta, counters := counters }

/-- `BTT::size` (src/counter.cpp:90-93). -/
def Btt.size (b : Btt) : Nat := b.delta.length / 2

/-- `BTT::get_edge` (src/counter.cpp:105-108). -/
def Btt.getEdge (b : Btt) (q : Nat) : Res (BttEdge × BttEdge) := do
  let e0 ← vat b.delta (q * 2)
  let e1 ← vat b.delta (q * 2 + 1)
  pure (e0, e1)

/-- `BTT::to_graph` (src/counter.cpp:124-134). -/
def Btt.toGraph (b : Btt) : Res Graph := do
  let p ← (List.range b.size).foldlM (fun (p : List Nat × List (Nat × Nat × Nat)) q => do
    let e ← b.getEdge q
    pure (sinsert q p.1, p.2 ++ [(q, e.1.dst, e.2.dst)])) ([], [])
  Graph.make 0 p.1 p.2

/-! ## `class Counter` (src/counter.cpp:138-225) -/

/-- `Counter` (src/counter.cpp:140-142): `c_`, `bit_width_`, `init_val_`. -/
structure Counter (N : Nat) where
  c : List (TRLWE N)
  width : Nat
  init : BitVec 64

/-- `((v >> i) & 1) != 0` on a `uint64_t`; a shift by 64 or more is undefined. (src/counter.cpp:155, 260) -/
def bit64 (v : BitVec 64) (i : Nat) : Res Bool := if i < 64 then .ok (((v >>> i) &&& 1#64) != 0#64) else .error .ub

/-- `Counter::reset` (src/counter.cpp:151-159). -/
def Counter.reset (ctr : Counter N) : Res (Counter N) := do
  let c := vresize ctr.c ctr.width (trivialTRLWEZero N)
  let c ← (List.range ctr.width).foldlM (fun (c : List (TRLWE N)) i => do
    let b ← bit64 ctr.init i
    vset c i (if b then trivialTRLWE8 N else trivialTRLWEMinus8 N)) c
  pure { ctr with c := c }

/-- The constructor (src/counter.cpp:145-149). -/
def Counter.make (width : Nat) (init : BitVec 64) : Res (Counter N) :=
  Counter.reset { c := [], width := width, init := init }

/-- The level 0 ciphertext of a bit (src/counter.cpp:172-177, 191-194). -/
def bitToLvl0 (S : Scheme N n l) (c : TRLWE N) : Res (TLWE n) := do
  let t1 ← sampleExtractAt c 0
  pure (S.iks t1)

/-- `Counter::is_zero` (src/counter.cpp:161-181). -/
def Counter.isZero (S : GateScheme N n l) (ctr : Counter N) (tree : RedTree) : Res (TLWE n) := do
  let ts ← ctr.c.mapM (bitToLvl0 S.toScheme)
  let out ← tree.eval S.homOR (trivialTLWEMinus8 n :: ts)
  pure (homNOT out)

/-- One task of the loop of `minus_one` (src/counter.cpp:199-201); vector 0 is `c_`. -/
def minusTask (S : Scheme N n l) (memo : List (TLWE n)) (i : Nat) : Prog (TRLWE N) :=
  .local (vat memo (i * 2)) fun x =>
  .local (vat memo (i * 2 + 1)) fun y =>
  .write 0 i (S.homXor x y) .ret

/-- `Counter::minus_one` (src/counter.cpp:183-202). -/
def Counter.minusOne (S : GateScheme N n l) (ctr : Counter N) (borrow : TLWE n) : Res (Counter N) := do
  let p ← (List.range ctr.width).foldlM (fun (p : List (TLWE n) × TLWE n) i => do
    let ci ← vat ctr.c i
    let t0 ← bitToLvl0 S.toScheme ci
    pure (p.1 ++ [t0, p.2], S.homANDNY t0 p.2)) ([], borrow)
  let c ← one (← parFor ((List.range ctr.width).map (minusTask S.toScheme p.1)) [ctr.c])
  pure { ctr with c := c }

/-- `TFHEpp::trlweSymDecrypt<Lvl1>(c, key)[i]`: the sign of the phase (src/counter.cpp:208, 352) -/
def trlweSymDecryptAt (c : TRLWE N) (sk : SecretKey N n) (i : Nat) : Res Bool :=
  if h : i < N then .ok (decide (0 < ((c.phase sk.lvl1) ⟨i, h⟩).toInt)) else .error .ub

/-- `1u << i`; undefined for `i ≥ 32` (src/counter.cpp:210) -/
def shlU32 (i : Nat) : Res (BitVec 64) := if i < 32 then .ok (((1#32) <<< i).setWidth 64) else .error .ub

/-- `Counter::decrypt` (src/counter.cpp:204-213). -/
def Counter.decrypt (ctr : Counter N) (sk : SecretKey N n) : Res (BitVec 64) :=
  (List.range ctr.width).foldlM (fun (res : BitVec 64) i => do
    let ci ← vat ctr.c i
    let b ← trlweSymDecryptAt ci sk 0
    if b then do
      let m ← shlU32 i
      pure (res ||| m)
    else pure res) 0#64

/-- `Counter::cmux` (src/counter.cpp:215-224): the new value of `out`. -/
def Counter.cmux (S : Scheme N n l) (out : Counter N) (sel : Gsw l N) (in1 in0 : Counter N) : Res (Counter N) := do
  cassert (decide (out.c.length = in1.c.length))
  cassert (decide (out.c.length = in0.c.length))
  let c ← (List.range out.c.length).foldlM (fun (c : List (TRLWE N)) i => do
    let a ← vat in1.c i
    let b ← vat in0.c i
    vset c i (S.cmux sel a b)) out.c
  pure { out with c := c }

/-! ## `class Weight` (src/counter.cpp:227-384) -/

/-- `Weight` (src/counter.cpp:229-236): `general_` and `counter_`. -/
structure Weight (N : Nat) where
  general : TRLWE N
  counter : List (Counter N)

/-- `Weight::mark_general_bit` (src/counter.cpp:239-245). -/
def Weight.mark (w : Weight N) (i : Nat) : Res (Weight N) := do
  let p ← pset (fun _ => 0#32) i mu4
  pure { w with general := w.general.add (trivialTRLWE p) }

/-- `Weight::initialize_general` (src/counter.cpp:252-264); `k` is `counter_.size()`. -/
def initGeneral (N k : Nat) (stateNo : BitVec 64) : Res (TRLWE N) := do
  let p ← pset (fun _ => 0#32) 0 (-mu8)
  let p ← (List.range k).foldlM (fun p (i : Nat) => pset p ((N / 2 + i : Nat) : Int) (-mu8)) p
  let p ← (List.range 64).foldlM (fun p (i : Nat) => do
    let b ← bit64 stateNo i
    pset p ((i + 1 : Nat) : Int) (if b then mu8 else -mu8)) p
  pure (trivialTRLWE p)

/-- `Weight(state_no, counter_spec)` (src/counter.cpp:267-276): `initialize_general` runs while `counter_` is still empty. -/
def Weight.make (N : Nat) (stateNo : BitVec 64) (spec : List (Nat × BitVec 64)) : Res (Weight N) := do
  let g ← initGeneral N 0 stateNo
  let cs ← spec.mapM fun s => Counter.make s.1 s.2
  pure { general := g, counter := cs }

/-- `Weight(state_no, src)` (src/counter.cpp:279-282). -/
def Weight.fromSrc (stateNo : BitVec 64) (src : Weight N) : Res (Weight N) := do
  let g ← initGeneral N src.counter.length stateNo
  pure { general := g, counter := src.counter }

/-- `Weight::get_accept` (src/counter.cpp:284-287). -/
def Weight.getAccept (w : Weight N) : Res (TLWE N) := sampleExtractAt w.general 0

/-- `Weight::mark_accept` (src/counter.cpp:289-292). -/
def Weight.markAccept (w : Weight N) : Res (Weight N) := w.mark 0

/-- `Weight::mark_counter` (src/counter.cpp:294-297). -/
def Weight.markCounter (w : Weight N) (i : Nat) : Res (Weight N) := w.mark (N / 2 + i)

/-- `Weight::reset_counter` (src/counter.cpp:299-302). -/
def Weight.resetCounter (w : Weight N) (i : Nat) : Res (Weight N) := do
  let c ← vat w.counter i
  let c ← c.reset
  let cs ← vset w.counter i c
  pure { w with counter := cs }

/-- `Weight::get_counter_condition` (src/counter.cpp:304-316): `parallel_for` over `out.at(i)`; `trees i` is the reduction order used for counter `i`. -/
def Weight.conditions (S : GateScheme N n l) (w : Weight N) (trees : Nat → RedTree) : Res (List (Gsw l N)) :=
  (List.range w.counter.length).mapM fun i => do
    let c ← vat w.counter i
    let t ← c.isZero S (trees i)
    pure (S.cb01 t)

/-- `Weight::get_selectors` (src/counter.cpp:318-333). -/
def Weight.selectors (S : GateScheme N n l) (w : Weight N) (k : Nat) : Res (List (Gsw l N)) :=
  (List.range k).mapM fun i => do
    let t1 ← sampleExtractAt w.general (i + 1)
    pure (S.cb01 (S.iks t1))

/-- One task of `Weight::update_counters` (src/counter.cpp:339-346); vector 0 is `counter_`. -/
def updateTask (S : GateScheme N n l) (general : TRLWE N) (i : Nat) : Prog (Counter N) :=
  .local (sampleExtractAt general (N / 2 + i)) fun t1 =>
  .read 0 i fun c =>
  .local (c.minusOne S (S.iks t1)) fun c =>
  .write 0 i c .ret

/-- `Weight::update_counters` (src/counter.cpp:336-347). -/
def Weight.updateCounters (S : GateScheme N n l) (w : Weight N) : Res (Weight N) := do
  let cs ← one (← parFor ((List.range w.counter.length).map (updateTask S w.general)) [w.counter])
  pure { w with counter := cs }

/-- `Weight::cmux` (src/counter.cpp:373-383): the new value of `out`. -/
def Weight.cmux (S : Scheme N n l) (out : Weight N) (sel : Gsw l N) (in1 in0 : Weight N) : Res (Weight N) := do
  cassert (decide (out.counter.length = in1.counter.length))
  cassert (decide (out.counter.length = in0.counter.length))
  let cs ← (List.range out.counter.length).foldlM (fun (cs : List (Counter N)) i => do
    let o ← vat cs i
    let a ← vat in1.counter i
    let b ← vat in0.counter i
    let c ← Counter.cmux S o sel a b
    vset cs i c) out.counter
  pure { general := S.cmux sel in1.general in0.general, counter := cs }

/-- `alter_weight` (src/counter.cpp:386-398). -/
def alterWeight (src : Weight N) (accept : Bool) (reset inc : List Nat) : Res (Weight N) := do
  let ret ← (if accept then src.markAccept else pure src : Res (Weight N))
  let ret ← reset.foldlM (fun r i => r.resetCounter i) ret
  inc.foldlM (fun r i => r.markCounter i) ret

/-- One task of a layer of `lookup_table` (src/counter.cpp:416-418); vector 0 is `tmp`, vector 1 is `table`. -/
def wlutTask (S : Scheme N n l) (input : Gsw l N) (j : Nat) : Prog (Weight N) :=
  .read 0 j fun o =>
  .read 1 (j * 2 + 1) fun c1 =>
  .read 1 (j * 2) fun c0 =>
  .local (o.cmux S input c1 c0) fun c =>
  .write 0 j c .ret

/-- The loop of `lookup_table` (src/counter.cpp:414-420); state: `tmp`, `table`. -/
def wlutLoop (S : Scheme N n l) (inputSize : Nat) : List (Gsw l N) → Nat → List (Weight N) → List (Weight N) →
    Res (List (Weight N) × List (Weight N))
  | [], _, tmp, table => .ok (tmp, table)
  | c :: rest, i, tmp, table => do
    let cnt ← shl1 (inputSize - i - 1)
    let p ← two (← parFor ((List.range cnt).map (wlutTask S c)) [tmp, table])
    wlutLoop S inputSize rest (i + 1) p.2 p.1

/-- `lookup_table` (src/counter.cpp:400-421): the new `table`. -/
def wlookupTable (S : Scheme N n l) (table : List (Weight N)) (inputs : List (Gsw l N)) : Res (List (Weight N)) := do
  let sz ← shl1 inputs.length
  cassert (decide (table.length = sz))
  if inputs.length = 0 then
    pure table
  else do
    let half ← shl1 (inputs.length - 1)
    let d ← vat table 0
    let r ← wlutLoop S inputs.length inputs 0 (List.replicate half d) table
    pure r.2

/-! ## `class BTTRunner` (src/counter.cpp:423-594) -/

/-- `BTTRunner` (src/counter.cpp:425-432). -/
structure BttRunner (N l : Nat) where
  btt : Btt
  graph : Graph
  queueSize : Nat
  queued : List (Gsw l N)
  state : Weight N
  live : List Nat

/-- The constructor (src/counter.cpp:468-479). -/
def BttRunner.make (btt : Btt) (queueSize : Nat) : Res (BttRunner N l) := do
  let g ← btt.toGraph
  let st ← Weight.make N 0#64 btt.counters
  pure { btt := btt, graph := g, queueSize := queueSize, queued := [], state := st, live := [0] }

/-- `opt.value()` (src/counter.cpp:519) -/
def optValue {α : Type} (o : Option α) : Res α := match o with
  | some x => .ok x
  | none => .error .badOptional

/-- One task of `eval_block_cmuxs` (src/counter.cpp:517-526); vector 0 is `temp`, vector 1 is `weight`. -/
def bttTask (S : Scheme N n l) (btt : Btt) (state : Weight N) (input : Gsw l N) (q : Nat) : Prog (Option (Weight N)) :=
  .local (btt.getEdge q) fun e =>
  .read 1 e.1.dst fun w0 =>
  .local (do let w ← optValue w0; alterWeight w e.1.accept e.1.reset e.1.inc) fun in0 =>
  .read 1 e.2.dst fun w1 =>
  .local (do let w ← optValue w1; alterWeight w e.2.accept e.2.reset e.2.inc) fun in1 =>
  .local (do let o ← Weight.fromSrc 0#64 state; o.cmux S input in1 in0) fun out =>
  .write 0 q (some out) .ret

/-- `BTTRunner::eval_block_cmuxs` (src/counter.cpp:507-529): the iterations for `i = k-1, ..., 0`; state: `weight`, `temp`.
The loop variable of the C++ is an `int`: a block has less than 2^31 inputs and conditions. -/
def bttBlock (S : Scheme N n l) (btt : Btt) (state : Weight N) (inputs : List (Gsw l N)) (atDepth : List (List Nat)) :
    Nat → List (Option (Weight N)) → List (Option (Weight N)) → Res (List (Option (Weight N)))
  | 0, weight, _ => .ok weight
  | i + 1, weight, temp => do
    let input ← vat inputs i
    let states ← vat atDepth i
    let p ← two (← parFor (states.map (bttTask S btt state input)) [temp, weight])
    bttBlock S btt state inputs atDepth i p.1 p.2

/-- The initial weights (src/counter.cpp:557-567). -/
def bttInit (graph : Graph) (btt : Btt) (state : Weight N) (next : List Nat) : Res (List (Option (Weight N))) := do
  let idx ← (List.range next.length).foldlM (fun (v : List (Option Nat)) i => do
      let q ← vat next i
      vset v q (some i)) (List.replicate graph.size none)
  next.foldlM (fun (weight : List (Option (Weight N))) q => do
      let i ← vat idx q
      let w ← Weight.fromSrc (match i with
        | some i => BitVec.ofNat 64 i
        | none => BitVec.allOnes 64) state
      vset weight q (some w)) (List.replicate btt.size none)

/-- The selection of the candidate (src/counter.cpp:572-590). -/
def bttSelect (S : GateScheme N n l) (state : Weight N) (live : List Nat) (weight : List (Option (Weight N))) : Res (Weight N) :=
  if live.length = 1 then do
    let w ← vat weight 0
    optValue w
  else do
    let width := Nat.clog 2 live.length
    let selectors ← state.selectors S width
    let cand ← (List.range live.length).mapM fun i => do
      let q ← vat live i
      let w ← vat weight q
      optValue w
    let sz ← shl1 width
    let d ← Weight.fromSrc 0#64 state
    let t ← wlookupTable S.toScheme (vresize cand sz d) selectors
    vat t 0

/-- `BTTRunner::eval_queued_inputs` (src/counter.cpp:531-594). -/
def BttRunner.evalQueued (S : GateScheme N n l) (r : BttRunner N l) (trees : Nat → RedTree) : Res (BttRunner N l) :=
  if r.queued.length = 0 then pure r
  else do
    let conds ← r.state.conditions S trees
    let inputs := conds ++ r.queued
    let atDepth ← r.graph.trackLiveStates r.live inputs.length
    let next := atDepth.getLastD []
    let weight ← bttInit r.graph r.btt r.state next
    let weight ← bttBlock S.toScheme r.btt r.state inputs atDepth inputs.length weight (List.replicate r.btt.size none)
    let st ← bttSelect S r.state r.live weight
    let st ← st.updateCounters S
    pure { r with queued := [], live := next, state := st }

/-- `BTTRunner::result` (src/counter.cpp:481-487). -/
def BttRunner.result (S : GateScheme N n l) (r : BttRunner N l) (trees : Nat → RedTree) : Res (TLWE N × BttRunner N l) := do
  let r ← r.evalQueued S trees
  let c ← r.state.getAccept
  pure (c, r)

/-- `BTTRunner::eval_one` (src/counter.cpp:489-495). -/
def BttRunner.evalOne (S : GateScheme N n l) (r : BttRunner N l) (input : Gsw l N) (trees : Nat → RedTree) : Res (BttRunner N l) :=
  let r := { r with queued := r.queued ++ [input] }
  if r.queued.length < r.queueSize then pure r else r.evalQueued S trees

/-- `TLWELvl1_decrypt` (src/counter.cpp:42-45): `TFHEpp::bootsSymDecrypt<Lvl1>`, the sign of the phase. -/
def tlweSymDecrypt (c : TLWE N) (sk : SecretKey N n) : Bool := decide (0 < (c.phase sk.lvl1).toInt)

/-! ## `class BTTPlaintextRunner` (src/counter.cpp:596-651) -/

/-- `BTTPlaintextRunner` (src/counter.cpp:598-601).  `counter_` has type `int`; it never decreases below 0. -/
structure BttPlain where
  btt : Btt
  cur : Nat
  accept : Bool
  counter : List Nat

/-- The constructor (src/counter.cpp:611-617). -/
def BttPlain.make (btt : Btt) : BttPlain :=
  { btt := btt, cur := 0, accept := false, counter := List.replicate btt.counters.length 0 }

/-- `counter_.at(i)++` on an `int`; overflow is undefined. (src/counter.cpp:642) -/
def incInt (v : List Nat) (i : Nat) : Res (List Nat) := do
  let x ← vat v i
  if x + 1 < 2 ^ 31 then vset v i (x + 1) else .error .ub

/-- `BTTPlaintextRunner::eval_one` (src/counter.cpp:624-643). -/
def BttPlain.evalOne (r : BttPlain) (input : Bool) : Res BttPlain := do
  let cur ← (List.range r.btt.counters.length).foldlM (fun cur i => do
    let spec ← vat r.btt.counters i
    let x ← vat r.counter i
    let e ← r.btt.getEdge cur
    pure (if x = spec.2.toNat then e.2 else e.1).dst) r.cur
  let e ← r.btt.getEdge cur
  let e := if input then e.2 else e.1
  let counter ← e.reset.foldlM (fun c i => vset c i 0) r.counter
  let counter ← e.inc.foldlM incInt counter
  pure { r with cur := e.dst, accept := e.accept, counter := counter }

end Homfa
