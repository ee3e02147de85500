import Verif.Model.Tfhe
import Mathlib.Algebra.Polynomial.Basic

/-! # Distance on the torus and polynomials modulo X^N + 1 -/

namespace Homfa

/-- The size of a torus element seen as a signed error, in units of 2^-32. -/
def Torus.abs (x : Torus) : Nat := x.toInt.natAbs

/-- `x` and `y` differ by at most `e` (around the circle). -/
def Near (e : Nat) (x y : Torus) : Prop := Torus.abs (x - y) ≤ e

/-- the message 0 or 1/2 that encodes a bit -/
def half (b : Bool) : Torus := if b then mu2 else 0#32

/-- the message -1/8 or 1/8 that encodes a bit -/
def eighth (b : Bool) : Torus := if b then mu8 else -mu8

/-- a coefficient array as a polynomial -/
noncomputable def Poly.toPoly {N : Nat} (p : Poly N) : Polynomial Torus :=
  ∑ i : Fin N, Polynomial.monomial i.val (p i)

end Homfa
