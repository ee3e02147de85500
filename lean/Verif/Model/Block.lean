import Verif.Model.Lut

/-!
# The BLOCK runner (src/online_dfa.cpp:375-535)

`weight` and `out` (`workspace1_`, `workspace2_`) and `cond` (`workspace3_`) are cleared before they are used, so their old content
is not part of the state.  `workspace4_` is only resized; it is part of the state.

`std::floor(std::log2(x)) + 1` is modelled by `Nat.log2 x + 1`; the double computation is exact for the sizes that fit in memory.
-/

namespace Homfa

variable {N n l : Nat}

/-- `class OnlineDFARunner4` (src/online_dfa.hpp:103-118). -/
structure Block (N l : Nat) where
  graph : Graph
  queueSize : Nat
  queued : List (Gsw l N)
  selector : Option (TRLWE N)
  live : List Nat
  ws4 : List (TLWE N)
  timer : List (Target × Nat)

/-- The constructor (src/online_dfa.cpp:376-391). -/
def Block.make (graph : Graph) (queueSize : Nat) (sanitize : Bool) : Res (Block N l) := do
  if sanitize then throw .die
  pure { graph := graph, queueSize := queueSize, queued := [], selector := none, live := [graph.initialState], ws4 := [],
         timer := [] }

/-- `w[1][i] = x` on a `std::array`; out of bounds is undefined. (src/online_dfa.cpp:466-475) -/
def setB (w : TRLWE N) (i : Nat) (x : Torus) : Res (TRLWE N) :=
  if i < N then .ok { w with b := fun j => if j.val = i then x else w.b j } else .error .ub

/-- The content of one weight (src/online_dfa.cpp:463-474): coefficient 0 says whether the state is final, coefficients 1.. are the
bits of its index. -/
def blockWeight (w : TRLWE N) (final : Bool) (t nextWidth : Nat) : Res (TRLWE N) := do
  let w ← setB w 0 (if final then mu2 else 0#32)
  (List.range nextWidth).foldlM (fun w i =>
    if (t >>> i) &&& 1 = 0 then setB w (i + 1) (-mu8) else setB w (i + 1) mu8) w

/-- The initial weights (src/online_dfa.cpp:444-474). -/
def blockInit (graph : Graph) (next : List Nat) : Res (List (TRLWE N)) := do
  let idx ← (List.range next.length).foldlM (fun (v : List (Option Nat)) i => do
      let q ← vat next i
      vset v q (some i)) (List.replicate graph.size none)
  let nextWidth := Nat.log2 next.length + 1
  next.foldlM (fun (weight : List (TRLWE N)) q => do
      let f ← graph.isFinalState q
      let w ← vat weight q
      let t ← vat idx q
      let w ← (match t with
        | some t => blockWeight w f t nextWidth
        | none => .error .ub : Res (TRLWE N))
      vset weight q w) (List.replicate graph.size (trivialTRLWEZero N))

/-- One task of the propagation loop (src/online_dfa.cpp:482-491); vector 0 is `out`, vector 1 is `weight`. -/
def blockTask (S : Scheme N n l) (graph : Graph) (queued : List (Gsw l N)) (i q : Nat) : Prog (TRLWE N) :=
  .local (graph.nextState q false) fun q0 =>
  .local (graph.nextState q true) fun q1 =>
  .read 1 q0 fun w0 =>
  .read 1 q1 fun w1 =>
  .local (vat queued i) fun c =>
  .write 0 q (S.cmux c w1 w0) .ret

/-- The number of iterations of `for (int i = input_size - 1; i >= 0; i--)` (src/online_dfa.cpp:479): the start value is converted to
`int`. -/
def countDown (inputSize : Nat) : Nat := (narrow ((inputSize : Int) - 1) + 1).toNat

/-- "Propagate weight from back to front" (src/online_dfa.cpp:476-496): the iterations for `i = k-1, ..., 0`.  State: `weight`, `out`,
timer. -/
def blockPropagate (S : Scheme N n l) (graph : Graph) (queued : List (Gsw l N)) (atDepth : List (List Nat)) :
    Nat → List (TRLWE N) → List (TRLWE N) → List (Target × Nat) →
    Res (List (TRLWE N) × List (TRLWE N) × List (Target × Nat))
  | 0, weight, out, timer => .ok (weight, out, timer)
  | i + 1, weight, out, timer => do
    let states ← vat atDepth i
    let p ← two (← parFor (states.map (blockTask S graph queued i)) [out, weight])
    blockPropagate S graph queued atDepth i p.1 p.2 (timer ++ [(.cmux, states.length)])

/-- One task of the extraction loop (src/online_dfa.cpp:514-516); vector 0 is `workspace4_`. -/
def extractTask (sel : TRLWE N) (i : Nat) : Prog (TLWE N) :=
  .local (sampleExtractAt sel (i + 1)) fun c =>
  .write 0 i c .ret

/-- One task of the circuit bootstrapping loop (src/online_dfa.cpp:518-521); vector 0 is `cond`. -/
def cbTask (S : Scheme N n l) (ws4 : List (TLWE N)) (i : Nat) : Prog (Gsw l N) :=
  .local (vat ws4 i) fun c =>
  .write 0 i (S.cb c) .ret

/-- `OnlineDFARunner4::eval_queued_inputs` (src/online_dfa.cpp:411-535).  `live_states_at_depth` (419-439) is the code of
`Graph::track_live_states`. -/
def Block.evalQueued (S : Scheme N n l) (r : Block N l) : Res (Block N l) := do
  let inputSize := r.queued.length
  if inputSize = 0 then
    pure r
  else do
    let live := r.live
    let atDepth ← r.graph.trackLiveStates live inputSize
    let next := atDepth.getLastD []
    let weight ← blockInit r.graph next
    let out := List.replicate r.graph.size (trivialTRLWEZero N)
    let p ← blockPropagate S r.graph r.queued atDepth (countDown inputSize) weight out r.timer
    let weight := p.1
    let out := p.2.1
    let timer := p.2.2
    if live.length = 1 then do
      let q ← vat live 0
      let w ← vat weight q
      pure { r with live := next, queued := [], selector := some w, timer := timer }
    else do
      let width := Nat.log2 live.length + 1
      let cond : List (Gsw l N) := List.replicate width (fun _ _ _ => 0#64)
      let sel ← (match r.selector with
        | some s => .ok s
        | none => .error .ub : Res (TRLWE N))
      let ws4 := vresize r.ws4 width ⟨fun _ => 0#32, 0#32⟩
      let ws4 ← one (← parFor ((List.range width).map (extractTask sel)) [ws4])
      let cond ← one (← parFor ((List.range width).map (cbTask S ws4)) [cond])
      let timer := timer ++ [(.circuitBootstrapping, width)]
      let out ← (List.range live.length).foldlM (fun (out : List (TRLWE N)) i => do
          let q ← vat live i
          let w ← vat weight q
          vset out i w) out
      let sz ← shl1 width
      let weight' := vresize out sz (trivialTRLWEZero N)
      let out' := vresize weight sz (trivialTRLWEZero N)
      let t ← lookupTableTimer S weight' cond out' timer
      let w ← vat t.1 0
      pure { r with live := next, queued := [], selector := some w, ws4 := ws4, timer := t.2.2 }

/-- `OnlineDFARunner4::result` (src/online_dfa.cpp:392-401). -/
def Block.result (S : Scheme N n l) (r : Block N l) : Res (TLWE N × Block N l) := do
  let r ← r.evalQueued S
  match r.selector with
  | some s => do
    let c ← sampleExtractAt s 0
    pure (c, r)
  | none => .error .assertFail

/-- `OnlineDFARunner4::eval_one` (src/online_dfa.cpp:403-409). -/
def Block.evalOne (S : Scheme N n l) (r : Block N l) (input : Gsw l N) : Res (Block N l) :=
  let r := { r with queued := r.queued ++ [input] }
  if r.queued.length < r.queueSize then pure r else r.evalQueued S

end Homfa
