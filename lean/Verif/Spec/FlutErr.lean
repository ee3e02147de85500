import Verif.Spec.Scheme

/-!
# The noise of the FLUT runner
-/

namespace Homfa

/-- The error of a weight `j` evaluations after the last bootstrapping: every evaluation adds up to `L * 2^(qs/2)` weights and then costs
at most `qs` CMUXes and one key switch. -/
def flutErr (δ : Noise) (L qs : Nat) : Nat → Nat
  | 0 => δ.br + δ.ik11
  | j + 1 => L * 2 ^ (qs / 2) * flutErr δ L qs j + qs * δ.cmux + δ.ik11

end Homfa
