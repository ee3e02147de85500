import Verif.Spec.Counter

/-!
# Specification for the BTT runners

What a client does with the two runners, and the class of BTTs for which they agree.
-/

namespace Homfa

variable {N n l : Nat}

/-- The state `q` can be reached from state 0 in `d` transitions. -/
inductive Btt.Reach (b : Btt) : Nat → Nat → Prop
  | zero : Reach b 0 0
  | step {d q : Nat} {e : BttEdge} : Reach b d q → e ∈ b.delta → e.src = q → Reach b (d + 1) e.dst

/-- A table of transitions. -/
structure Btt.Table (b : Btt) : Prop where
  /-- the constructor accepts the table -/
  made : Btt.make 0 b.delta b.counters = .ok b
  nonempty : b.delta ≠ []
  /-- every transition leads to a state of the table -/
  dst : ∀ e ∈ b.delta, e.dst < b.size

/-- The BTTs for which the runners agree, for `k` counters.  One input takes `k + 1` transitions: one for every counter
condition and one for the input itself. -/
structure Btt.Fit (b : Btt) : Prop extends b.Table where
  /-- the counters that are reset or incremented exist -/
  reset : ∀ e ∈ b.delta, ∀ i ∈ e.reset, i < b.counters.length
  inc : ∀ e ∈ b.delta, ∀ i ∈ e.inc, i < b.counters.length
  /-- no transition increments a counter twice -/
  once : ∀ e ∈ b.delta, e.inc.Nodup
  /-- the initial value of a counter fits its width -/
  width : ∀ s ∈ b.counters, s.1 ≤ 64 ∧ s.2.toNat < 2 ^ s.1
  /-- the transitions on counter conditions have no effects -/
  silent : ∀ d q, d % (b.counters.length + 1) < b.counters.length → b.Reach d q → ∀ e ∈ b.delta, e.src = q →
    e.accept = false ∧ e.reset = [] ∧ e.inc = []
  /-- if only one state is possible when an input arrives, it is state 0 -/
  single : ∀ t q, b.Reach (t * (b.counters.length + 1)) q → (∀ q', b.Reach (t * (b.counters.length + 1)) q' → q' = q) → q = 0

/-- The plaintext runner on a list of inputs. -/
def plainRun (b : Btt) (bs : List Bool) : Res BttPlain := bs.foldlM (fun r x => r.evalOne x) (BttPlain.make b)

/-- The encrypted runner with queue size 1 on a list of encrypted inputs.  The second components are the orders in which
the parallel zero tests of the counters combine their bits at that input. -/
def bttRun (S : GateScheme N n l) (b : Btt) (cs : List (Gsw l N × (Nat → RedTree))) : Res (BttRunner N l) := do
  let r ← BttRunner.make b 1
  cs.foldlM (fun r c => r.evalOne S c.1 c.2) r

/-- In the plaintext runner's state no counter has run past its initial value by 2^width. -/
def BttPlain.Small (p : BttPlain) : Prop :=
  ∀ (i : Nat) (s : Nat × BitVec 64), p.btt.counters[i]? = some s → ∀ x, p.counter[i]? = some x → x < s.2.toNat + 2 ^ s.1

/-- An encrypted input, with valid orders of the reductions. -/
def BttInput (b : Btt) (Enc : Gsw l N → Bool → Prop) (c : Gsw l N × (Nat → RedTree)) (x : Bool) : Prop :=
  Enc c.1 x ∧ ∀ (i : Nat) (s : Nat × BitVec 64), b.counters[i]? = some s → (c.2 i).Valid (s.1 + 1)

end Homfa
