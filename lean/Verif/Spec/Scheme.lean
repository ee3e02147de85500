import Verif.Model.Scheme
import Verif.Spec.Torus

/-!
# What the proofs assume about the TFHE backend

Every operation is assumed to satisfy a worst-case error bound.  In TFHE these bounds hold except with a probability that
the parameters make negligible; the theorems are about executions in which they hold.
-/

namespace Homfa

/-- Worst-case errors, in units of 2^-32. -/
structure Noise where
  /-- added by one CMUX to every coefficient -/
  cmux : Nat
  /-- added by the key switch from level 1 to level 0 -/
  ks : Nat
  /-- rounding of a level 0 ciphertext inside the blind rotation -/
  ms : Nat
  /-- error of the output of the blind rotation -/
  br : Nat
  /-- added by the TLWE to TRLWE key switch -/
  ik11 : Nat
  /-- rounding inside the circuit bootstrapping -/
  cb : Nat

/-- `Enc c b`: the TRGSW ciphertext `c` encrypts the bit `b` with an error small enough for CMUX. -/
structure Scheme.Sound {N n l : Nat} (S : Scheme N n l) (δ : Noise) (Enc : Gsw l N → Bool → Prop) : Prop where
  /-- CMUX selects `c1` or `c0` -/
  cmux : ∀ g b c1 c0 i, Enc g b →
    Near δ.cmux ((S.cmux g c1 c0).phase S.sk.lvl1 i) ((if b then c1 else c0).phase S.sk.lvl1 i)
  /-- the key switch keeps the phase -/
  iks : ∀ c : TLWE N, Near δ.ks ((S.iks c).phase S.sk.lvl0) (c.phase S.sk.lvl1)
  /-- the blind rotation gives +μ for phases in (0, 1/2) and -μ for phases in (-1/2, 0), away from the boundary, in the
  constant coefficient; nothing is known about the other coefficients -/
  blindRotate_pos : ∀ (c : TLWE n) (mu : Torus) (i : Fin N), i.val = 0 →
    (δ.ms : Int) < (c.phase S.sk.lvl0).toInt → (c.phase S.sk.lvl0).toInt < (2 : Int) ^ 31 - δ.ms →
    Near δ.br ((S.blindRotate c (muPoly N mu)).phase S.sk.lvl1 i) mu
  blindRotate_neg : ∀ (c : TLWE n) (mu : Torus) (i : Fin N), i.val = 0 →
    -(2 : Int) ^ 31 + δ.ms < (c.phase S.sk.lvl0).toInt → (c.phase S.sk.lvl0).toInt < -(δ.ms : Int) →
    Near δ.br ((S.blindRotate c (muPoly N mu)).phase S.sk.lvl1 i) (-mu)
  /-- the conversion to TRLWE puts the phase into the constant coefficient and zero into the others -/
  tlwe2trlwe : ∀ (c : TLWE N) (i : Fin N),
    Near δ.ik11 ((S.tlwe2trlwe c).phase S.sk.lvl1 i) (if i.val = 0 then c.phase S.sk.lvl1 else 0)
  /-- circuit bootstrapping encrypts the sign of the phase -/
  cb_pos : ∀ c : TLWE N, (δ.cb : Int) < (c.phase S.sk.lvl1).toInt →
    (c.phase S.sk.lvl1).toInt < (2 : Int) ^ 31 - δ.cb → Enc (S.cb c) true
  cb_neg : ∀ c : TLWE N, -(2 : Int) ^ 31 + δ.cb < (c.phase S.sk.lvl1).toInt → (c.phase S.sk.lvl1).toInt < -(δ.cb : Int) →
    Enc (S.cb c) false
  /-- encryption -/
  encrypt : ∀ r b, Enc (S.encrypt r b) b

end Homfa
