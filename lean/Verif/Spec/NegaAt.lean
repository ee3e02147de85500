import Verif.Model.Tfhe

/-! # Coefficients modulo X^N + 1 -/

namespace Homfa

variable {N : Nat}

/-- Coefficient `z` of a polynomial modulo X^N + 1, for any integer `z`: the coefficients repeat with period `N`, each time with the opposite sign. -/
def Poly.at (p : Poly N) (z : Int) : Torus :=
  if h : 0 < N then
    (if (z / N) % 2 = 0 then p ⟨(z % N).toNat, by
        have h1 := Int.emod_nonneg z (b := N) (by omega)
        have h2 := Int.emod_lt_of_pos z (b := N) (by omega)
        omega⟩
      else -p ⟨(z % N).toNat, by
        have h1 := Int.emod_nonneg z (b := N) (by omega)
        have h2 := Int.emod_lt_of_pos z (b := N) (by omega)
        omega⟩)
  else 0

/-- `X^k` times a ciphertext -/
def TRLWE.mulX (k : Int) (c : TRLWE N) : TRLWE N := ⟨fun i => c.a.at (i - k), fun i => c.b.at (i - k)⟩

end Homfa
