import Verif.Spec.Temporal
/-! # Verdicts of a monitor while the recording goes on -/

namespace Homfa.Spec

/-- The bits are a recording of the behaviour from its beginning: `n` bits for each time step, p0 first; the last step may be incomplete. -/
def Records (σ : Behaviour) (n : Nat) (w : List Bool) : Prop := ∀ k b, w[k]? = some b → σ (k / n) (k % n) = b

/-- Verdicts in the order in which they were given: after a 0 only 0. -/
def NeverTakenBack (verdicts : List Bool) : Prop := verdicts.Pairwise fun a b => a = false → b = false

end Homfa.Spec
