import Verif.Model.CryptoTest
import Verif.Spec.Ltl
import Verif.Spec.Scheme
import Verif.Spec.FlutErr
/-!
# What the random test of the runners should mean
-/

namespace Homfa.Spec
open PlainTest CryptoTest

/-- The formula of the monitor mentions the propositions p_i for `i` in `props`, `apVars` are their variables, and the conditions of the monitor are about these. -/
structure Mentioned (M : Monitor) (n : Nat) (apVars props : List Nat) : Prop where
  vars : List.Forall₂ (fun v i => M.varOf i = some v) apVars props
  nodup : props.Nodup
  lt : ∀ i ∈ props, i < n
  about : ∀ es ∈ M.out, ∀ e ∈ es, ∀ v, Mentions v e.1 → v ∈ apVars

/-- The letter with the value of the `k`-th proposition mentioned in the place of p_k, and the value of p_0 in the places that are left. -/
def shuffledLetter (n : Nat) (props : List Nat) (a : List Bool) : List Bool := (List.range n).map fun k => a.getD (props.getD k 0) false

/-- `w'` has the letters of `w`, a word of whole letters, shuffled in this way. -/
def Shuffled (n : Nat) (props : List Nat) (w w' : List Bool) : Prop :=
  ∃ letters : List (List Bool), (∀ a ∈ letters, a.length = n) ∧ w = letters.flatten ∧ w' = (letters.map (shuffledLetter n props)).flatten

/-- an input of the test: one of the numbers 1 to 10 in binary, or one of the random inputs -/
def IsInput (n : Nat) (rand : List (Nat × (Nat → Bool))) (w : List Bool) : Prop :=
  (∃ i, 1 ≤ i ∧ i ≤ 10 ∧ int2bvec i n = .ok w) ∨ ∃ r ∈ rand, randomBvec r.1 r.2 n = .ok w

/-- At every depth at most `L` states are reachable. -/
def AtMostLive (g : Graph) (L : Nat) : Prop :=
  ∀ (d : Nat) (X : List Nat), X.Nodup → (∀ q ∈ X, ∃ w : List Bool, w.length = d ∧ g.runWord g.initialState w = .ok q) → X.length ≤ L

/-- A run of the method on at most `len` bits stays within the noise budget and the limits of the runner, with the parameters of the test. -/
def WithinBudget (N : Nat) (δ : Noise) (g : Graph) (len : Nat) : Method → Prop
  | .offline => δ.br + min 30000 len * δ.cmux + δ.ks + δ.ms < 2 ^ 30 ∧ len < 2 ^ 31
  | .reversed => δ.br + min 30000 len * δ.cmux + δ.ks + δ.ms < 2 ^ 30
  | .qtrlwe2 => 2 ^ 8 ≤ N ∧ ∃ L, AtMostLive g L ∧ L < 2 ^ 8 ∧ L * 2 ^ (15 / 2) * flutErr δ L 15 0 + 15 * δ.cmux + δ.ks + δ.ms < 2 ^ 30

/-- the automaton the test gives to the runners -/
def TestedAutomaton (M : Monitor) (n : Nat) (g : Graph) : Prop := ∃ g0, Graph.fromMonitor M n false = .ok g0 ∧ g0.minimized = .ok g

end Homfa.Spec
