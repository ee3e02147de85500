import Verif.Spec.Temporal
/-! # What a finite recording can tell of a formula -/

namespace Homfa.Spec

/-- The same recordings of time steps with `n` propositions are beginnings of behaviours that satisfy the one or the other formula. -/
def SameBeginnings (n : Nat) (φ ψ : Formula) : Prop :=
  ∀ letters : List (List Bool), (∀ a ∈ letters, a.length = n) → ((∃ σ, BeginsWith σ letters ∧ φ.Holds σ) ↔ ∃ σ, BeginsWith σ letters ∧ ψ.Holds σ)

/-- the two formulas are satisfied by the same behaviours -/
def Equivalent (φ ψ : Formula) : Prop := ∀ σ, φ.Holds σ ↔ ψ.Holds σ

end Homfa.Spec
