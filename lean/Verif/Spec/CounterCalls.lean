import Verif.Model.CounterCalls
import Verif.Spec.Btt

/-! # What an onlooker sees of the BTT runner -/

namespace Homfa

variable {N n l : Nat}

/-- which function of the library is called -/
inductive GateKind where
  | cmux | keySwitch | xorGate | orGate | andNotGate | circuitBootstrapping
deriving DecidableEq

def GateCall.kind : GateCall N n l → GateKind
  | .cmux .. => .cmux
  | .iks _ => .keySwitch
  | .homXor .. => .xorGate
  | .homOR .. => .orGate
  | .homANDNY .. => .andNotGate
  | .cb01 _ => .circuitBootstrapping

/-- The functions of the library called by a run, in order. -/
def GComp.kinds {α : Type} (S : GateScheme N n l) (p : GComp N n l α) : List GateKind := (p.trace S).map GateCall.kind

/-- valid orders of the reductions for the counters of `b` -/
def Btt.TreesFor (b : Btt) (trees : Nat → RedTree) : Prop :=
  ∀ (i : Nat) (s : Nat × BitVec 64), b.counters[i]? = some s → (trees i).Valid (s.1 + 1)

/-- The encrypted runner with any queue size on a list of ciphertexts, and then its result. -/
def bttRunQ (S : GateScheme N n l) (b : Btt) (queue : Nat) (cs : List (Gsw l N × (Nat → RedTree))) (trees : Nat → RedTree) :
    Res (TLWE N × BttRunner N l) := do
  let r ← BttRunner.make b queue
  let r ← cs.foldlM (fun r c => r.evalOne S c.1 c.2) r
  r.result S trees

/-- the same as a program that calls the library -/
def bttRunC (b : Btt) (queue : Nat) (cs : List (Gsw l N × (Nat → RedTree))) (trees : Nat → RedTree) :
    GComp N n l (TLWE N × BttRunner N l) := do
  let r ← .ret (BttRunner.make b queue)
  let r ← cs.foldlM (fun r c => r.evalOneC c.1 c.2) r
  r.resultC trees

/-- The calls of the library for one block of `m` transitions, with counters of the widths `ws`, where `sz j` states are possible after `j` of the
transitions: the zero test of every counter; a CMUX of all the ciphertexts of a weight for every transition and every state possible before it; if
more than one state was possible, the number of the state is made into selectors for a lookup table; and every counter is decremented by its
borrow. -/
def bttBlockCalls (ws : List Nat) (sz : Nat → Nat) (m : Nat) : List GateKind :=
  (ws.flatMap fun w => List.replicate w .keySwitch ++ List.replicate w .orGate ++ [.circuitBootstrapping]) ++
  List.replicate (((List.range m).map sz).sum * (ws.sum + 1)) .cmux ++
  (if sz 0 = 1 then [] else
    (List.replicate (Nat.clog 2 (sz 0)) [.keySwitch, .circuitBootstrapping]).flatten ++
      List.replicate ((2 ^ Nat.clog 2 (sz 0) - 1) * (ws.sum + 1)) .cmux) ++
  ws.flatMap fun w => .keySwitch :: ((List.replicate w [.keySwitch, .andNotGate]).flatten ++ List.replicate w .xorGate)

/-- The calls of a whole run on `len` inputs with queue size `Q`, where `sz d` states are possible after `d` transitions: a block of the counters and
`Q` inputs for every `Q` inputs, and for the result one more block of the counters and the inputs left over, if any. -/
def bttCalls (ws : List Nat) (sz : Nat → Nat) (Q len : Nat) : List GateKind :=
  ((List.range (len / Q)).flatMap fun t => bttBlockCalls ws (fun j => sz (t * (ws.length + Q) + j)) (ws.length + Q)) ++
  if len % Q = 0 then [] else bttBlockCalls ws (fun j => sz (len / Q * (ws.length + Q) + j)) (ws.length + len % Q)

end Homfa
