import Verif.Model.Ltl
/-!
# Runs of a monitor over letters

A letter gives a truth value to each of the propositions p0, p1, ...: a list of bits, p0 first.
-/

namespace Homfa.Spec

/-- The truth value of a decision diagram under a valuation of its variables. -/
def bddEval (val : Nat → Bool) : Bdd → Bool
  | .ff => false
  | .tt => true
  | .node v lo hi => if val v then bddEval val hi else bddEval val lo

/-- The letter `a` satisfies the condition `c`: under a valuation that gives the variable of each proposition its bit, `c` is true. -/
def Satisfies (M : Monitor) (a : List Bool) (c : Bdd) : Prop :=
  ∃ val : Nat → Bool, (∀ i v, M.varOf i = some v → i < a.length → a[i]? = some (val v)) ∧ bddEval val c = true

/-- The monitor can go from `p` to `q` reading the letters. -/
inductive MonitorRun (M : Monitor) : Nat → List (List Bool) → Nat → Prop
  | nil (q : Nat) : MonitorRun M q [] q
  | cons {p q r : Nat} {a : List Bool} {as : List (List Bool)} {es : List (Bdd × Nat)} {c : Bdd} :
      M.out[p]? = some es → (c, q) ∈ es → Satisfies M a c → MonitorRun M q as r → MonitorRun M p (a :: as) r

/-- The variables met along a path of the diagram belong to the propositions `k`, ..., `n - 1`, in increasing order. -/
def OrderedBdd (varOf : Nat → Option Nat) (n : Nat) : Nat → Bdd → Prop
  | _, .ff => True
  | _, .tt => True
  | k, .node v lo hi => ∃ i, varOf i = some v ∧ k ≤ i ∧ i < n ∧ OrderedBdd varOf n (i + 1) lo ∧ OrderedBdd varOf n (i + 1) hi

/-- What Spot guarantees of a monitor over the propositions p0, ..., p(n-1), registered in this order. -/
structure MonitorOk (M : Monitor) (n : Nat) : Prop where
  init_lt : M.init < M.out.length
  dst_lt : ∀ es ∈ M.out, ∀ e ∈ es, e.2 < M.out.length
  distinct : ∀ i j v, i < n → j < n → M.varOf i = some v → M.varOf j = some v → i = j
  ordered : ∀ es ∈ M.out, ∀ e ∈ es, OrderedBdd M.varOf n 0 e.1
  satisfiable : ∀ es ∈ M.out, ∀ e ∈ es, ∃ val, bddEval val e.1 = true

/-- The bit word `w`, cut into letters of `n` bits, is the input of a run of the monitor from its initial state. -/
def MonitorAccepts (M : Monitor) (n : Nat) (w : List Bool) : Prop :=
  ∃ as q, (∀ a ∈ as, a.length = n) ∧ w = as.flatten ∧ MonitorRun M M.init as q

/-- No node has two equal branches, as BuDDy guarantees. -/
def Reduced : Bdd → Prop
  | .ff => True
  | .tt => True
  | .node _ lo hi => lo ≠ hi ∧ Reduced lo ∧ Reduced hi

/-- Some node of the diagram tests the variable `v`. -/
def Mentions (v : Nat) : Bdd → Prop
  | .ff => False
  | .tt => False
  | .node u lo hi => u = v ∨ Mentions v lo ∨ Mentions v hi

end Homfa.Spec
