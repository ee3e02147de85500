import Verif.Spec.Input
import Verif.Spec.Ltl
/-!
# Linear temporal logic

Formulas over the propositions p0, p1, ..., and the infinite behaviours that satisfy them.
-/

namespace Homfa.Spec

inductive Formula where
  | top
  | prop (i : Nat)
  | not (φ : Formula)
  | and (φ ψ : Formula)
  | next (φ : Formula)
  | until (φ ψ : Formula)

/-- A behaviour: the value of each proposition at each time step. -/
abbrev Behaviour := Nat → Nat → Bool

/-- The formula holds at time `t`. -/
def Formula.HoldsAt (σ : Behaviour) : Formula → Nat → Prop
  | .top, _ => True
  | .prop i, t => σ t i = true
  | .not φ, t => ¬ φ.HoldsAt σ t
  | .and φ ψ, t => φ.HoldsAt σ t ∧ ψ.HoldsAt σ t
  | .next φ, t => φ.HoldsAt σ (t + 1)
  | .until φ ψ, t => ∃ t', t ≤ t' ∧ ψ.HoldsAt σ t' ∧ ∀ s, t ≤ s → s < t' → φ.HoldsAt σ s

/-- The behaviour satisfies the formula. -/
def Formula.Holds (φ : Formula) (σ : Behaviour) : Prop := φ.HoldsAt σ 0

def Formula.or (φ ψ : Formula) : Formula := .not (.and (.not φ) (.not ψ))
def Formula.imp (φ ψ : Formula) : Formula := .not (.and φ (.not ψ))
/-- `F φ` -/
def Formula.eventually (φ : Formula) : Formula := .until .top φ
/-- `G φ` -/
def Formula.always (φ : Formula) : Formula := .not (.eventually (.not φ))

/-- The behaviour begins with the letters. -/
def BeginsWith (σ : Behaviour) (letters : List (List Bool)) : Prop :=
  ∀ t a, letters[t]? = some a → ∀ i b, a[i]? = some b → σ t i = b

/-- What Spot guarantees of the monitor of a formula over p0, ..., p(n-1): it can read the letters exactly when they are the beginning of
a behaviour that satisfies the formula.  (The monitor of an unsatisfiable formula can still read the empty sequence.) -/
structure MonitorFor (M : Monitor) (n : Nat) (φ : Formula) : Prop extends MonitorOk M n where
  reads : ∀ letters, letters ≠ [] → (∀ a ∈ letters, a.length = n) →
    ((∃ q, MonitorRun M M.init letters q) ↔ ∃ σ, BeginsWith σ letters ∧ φ.Holds σ)

/-- The recorded steps are the beginning of a behaviour that satisfies the formula, or there are none. -/
def NotViolated (φ : Formula) (ap : Nat) (rs : List (List (BitVec 8))) : Prop :=
  rs = [] ∨ ∃ σ, BeginsWith σ (rs.map (recordBits ap)) ∧ φ.Holds σ

end Homfa.Spec
