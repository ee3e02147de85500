import Verif.Spec.Btt
import Verif.Model.CounterTest

/-!
# Specification for the dumps of the BTT runners
-/

namespace Homfa

variable {N n l : Nat}

/-- Walking through the states `qs` along the transitions whose input bits are `bs`. -/
inductive Btt.Along (b : Btt) : Nat → List Bool → Nat → Prop
  | nil {q : Nat} : Along b q [] q
  | cons {e : BttEdge} {x : Bool} {bs : List Bool} {q : Nat} : e ∈ b.delta → e.input = x → Along b e.dst bs q → Along b e.src (x :: bs) q

/-- The transition on the input `x` in a state of the plaintext runner: from the current state one transition for every counter, on the bit "the
counter has its target value", and then `e`, on the input. -/
def BttPlain.Takes (p : BttPlain) (x : Bool) (e : BttEdge) : Prop :=
  ∃ q, p.btt.Along p.cur (List.zipWith (fun (y : Nat) (s : Nat × BitVec 64) => decide (y = s.2.toNat)) p.counter p.btt.counters) q ∧
    e ∈ p.btt.delta ∧ e.src = q ∧ e.input = x

/-- The text of a dump: accept bit, state, the counter information if there is any, and the numbers of the counters. -/
def bttDump (accept : Bool) (state : Nat) (info : Option Nat) (counters : List Nat) : List Char :=
  s!"acc:  {accept.toNat}\nst#:  {state}\n{match info with | some i => s!"info: {i}\n" | none => ""}".toList ++
    (counters.mapIdx fun i v => s!"cnt{i}: {v}\n".toList).flatten

/-! ## The test program -/

/-- The ciphertexts and orders of reductions `cs` are what the test may send to the encrypted runner for the bits `hs`. -/
def Sent (S : GateScheme N n l) (b : Btt) (cs : List (Gsw l N × (Nat → RedTree))) (hs : List Bool) : Prop :=
  List.Forall₂ (BttInput b fun c x => ∃ rnd, c = S.encrypt rnd x) cs hs

/-- After the inputs `hs`, sent as `cs`, the encrypted runner's result decrypts to `result` and the plaintext runner's result is `expected`. -/
def Compared (S : GateScheme N n l) (b : Btt) (cs : List (Gsw l N × (Nat → RedTree))) (hs : List Bool) (result expected : Bool) : Prop :=
  ∃ p r c, plainRun b hs = .ok p ∧ bttRun S b cs = .ok r ∧ (∀ trees, r.result S trees = .ok (c, r)) ∧
    tlweSymDecrypt c S.sk = result ∧ p.accept = expected

/-- The two runners give the same result after every one of the inputs `hs`. -/
def AllAgree (S : GateScheme N n l) (b : Btt) (cs : List (Gsw l N × (Nat → RedTree))) (hs : List Bool) : Prop :=
  ∀ i, 0 < i → i ≤ hs.length → ∃ v, Compared S b (cs.take i) (hs.take i) v v

/-- How the report on a test with the inputs `hs` begins. -/
def failHead (hs : List Bool) : List Char :=
  "======= TEST ERROR =======\n".toList ++ (hs.mapIdx fun i x => s!"Input {i}:\t{x.toNat}\n".toList).flatten

end Homfa
