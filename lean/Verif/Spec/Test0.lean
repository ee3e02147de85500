import Verif.Model.Test0
import Verif.Spec.TestBench

/-! # What a pass of the unit test program should tell -/

namespace Homfa.Cli

variable {N n l : Nat}

/-- A NaN in IEEE 754's binary64: the exponent is all ones and the fraction is not 0. -/
def IsNaN (w : BitVec 64) : Prop := w.toNat / 2 ^ 52 % 2 ^ 11 = 2 ^ 11 - 1 ∧ w.toNat % 2 ^ 52 ≠ 0

instance (w : BitVec 64) : Decidable (IsNaN w) := inferInstanceAs (Decidable (_ ∧ _))

/-- no coefficient of the ciphertext is a NaN -/
def NoNaN (c : Gsw l N) : Prop := ∀ i j k, ¬ IsNaN (c i j k)

/-- the two `double` are equal as numbers: none is a NaN, and they have the same bits or both are zero -/
def SameDouble (a b : BitVec 64) : Prop := ¬ IsNaN a ∧ ¬ IsNaN b ∧ (a = b ∨ (a.toNat % 2 ^ 63 = 0 ∧ b.toNat % 2 ^ 63 = 0))

/-- the two ciphertexts are equal as numbers -/
def SameNumbers (a b : Gsw l N) : Prop := ∀ i j k, SameDouble (a i j k) (b i j k)

/-- What the automaton of a block has to accept, for an automaton `g` in the spec file. -/
def GraphOp.language (op : GraphOp) (g : Graph) (w : List Bool) : Res Bool :=
  match op with
  | .asIs | .minimized => g.accepts w
  | .reversed => g.accepts w.reverse
  | .negated => (g.accepts w).map not

end Homfa.Cli
