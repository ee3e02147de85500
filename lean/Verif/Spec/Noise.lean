import Verif.Model.Scheme
import Verif.Spec.Scheme

/-!
# Errors that occur, instead of errors that are assumed

What OFFLINE and REVERSE compute, written down as one expression over the library operations, and the errors that the CMUXes of this
expression happen to make.  Nothing is assumed about the library here.
-/

namespace Homfa

variable {N n l : Nat}

/-- coefficient 0 of the phase: message plus error -/
def Scheme.phase0 (S : Scheme N n l) (hN : 0 < N) (x : TRLWE N) : Torus := x.phase S.sk.lvl1 ⟨0, hN⟩

/-- bootstrapping of a weight: `SampleExtractIndex` 0, key switch, bootstrapping from {0, 1/2} to {0, 1/2} -/
def Scheme.refresh (S : Scheme N n l) (hN : 0 < N) (x : TRLWE N) : TRLWE N := S.bsHalfToHalf (S.iks (sampleExtract x ⟨0, hN⟩))

/-- The weight of state `q` for the encrypted word `cs`: without letters, 1/2 or 0 as the state is final or not; with a first letter, a CMUX between the
weights of the two successors for the rest of the word, refreshed whenever the number of letters is a multiple of `boot`. -/
def cmuxTree (S : Scheme N n l) (hN : 0 < N) (next : Nat → Bool → Nat) (final : Nat → Bool) (boot : Nat) :
    List (Gsw l N) → Nat → TRLWE N
  | [], q => if final q then trivialTRLWE2 N else trivialTRLWEZero N
  | c :: cs, q =>
    let x := S.cmux c (cmuxTree S hN next final boot cs (next q true)) (cmuxTree S hN next final boot cs (next q false))
    if (cs.length + 1) % boot = 0 then S.refresh hN x else x

/-- the error a CMUX makes when its selector is supposed to be `b` -/
def Scheme.cmuxError (S : Scheme N n l) (hN : 0 < N) (c : Gsw l N) (b : Bool) (x1 x0 : TRLWE N) : Torus :=
  S.phase0 hN (S.cmux c x1 x0) - S.phase0 hN (if b then x1 else x0)

/-- The errors of the CMUXes that the word `bs` takes from `q`, back to the last refreshing. -/
def pathErrors (S : Scheme N n l) (hN : 0 < N) (next : Nat → Bool → Nat) (final : Nat → Bool) (boot : Nat) :
    List (Gsw l N) → List Bool → Nat → List Torus
  | c :: cs, b :: bs, q =>
    if (cs.length + 1) % boot = 0 then []
    else S.cmuxError hN c b (cmuxTree S hN next final boot cs (next q true)) (cmuxTree S hN next final boot cs (next q false)) ::
      pathErrors S hN next final boot cs bs (next q b)
  | _, _, _ => []

/-- The error of the last refreshing on the path of the word `bs` from `q`; zero if there was none. -/
def refreshError (S : Scheme N n l) (hN : 0 < N) (next : Nat → Bool → Nat) (final : Nat → Bool) (boot : Nat) :
    List (Gsw l N) → List Bool → Nat → Torus
  | c :: cs, b :: bs, q =>
    if (cs.length + 1) % boot = 0 then
      S.phase0 hN (cmuxTree S hN next final boot (c :: cs) q) - half (final ((b :: bs).foldl next q))
    else refreshError S hN next final boot cs bs (next q b)
  | _, _, _ => 0#32

/-- At every refreshing on the path of the word, the sum of the CMUX errors that occurred since the one before stays within the margin. -/
def MarginsMet (S : Scheme N n l) (hN : 0 < N) (δ : Noise) (next : Nat → Bool → Nat) (final : Nat → Bool) (boot : Nat) :
    List (Gsw l N) → List Bool → Nat → Prop
  | c :: cs, b :: bs, q =>
    MarginsMet S hN δ next final boot cs bs (next q b) ∧
    ((cs.length + 1) % boot = 0 →
      δ.br + Torus.abs (S.cmuxError hN c b (cmuxTree S hN next final boot cs (next q true)) (cmuxTree S hN next final boot cs (next q false)) +
        (pathErrors S hN next final boot cs bs (next q b)).sum) + δ.ks + δ.ms < 2 ^ 30)
  | _, _, _ => True

/-- What is assumed of the refreshing: the key switch and the blind rotation, as in `Scheme.Sound`. -/
structure Scheme.RefreshSound (S : Scheme N n l) (δ : Noise) : Prop where
  iks : ∀ c : TLWE N, Near δ.ks ((S.iks c).phase S.sk.lvl0) (c.phase S.sk.lvl1)
  blindRotate_pos : ∀ (c : TLWE n) (mu : Torus) (i : Fin N), i.val = 0 →
    (δ.ms : Int) < (c.phase S.sk.lvl0).toInt → (c.phase S.sk.lvl0).toInt < (2 : Int) ^ 31 - δ.ms →
    Near δ.br ((S.blindRotate c (muPoly N mu)).phase S.sk.lvl1 i) mu
  blindRotate_neg : ∀ (c : TLWE n) (mu : Torus) (i : Fin N), i.val = 0 →
    -(2 : Int) ^ 31 + δ.ms < (c.phase S.sk.lvl0).toInt → (c.phase S.sk.lvl0).toInt < -(δ.ms : Int) →
    Near δ.br ((S.blindRotate c (muPoly N mu)).phase S.sk.lvl1 i) (-mu)

end Homfa
