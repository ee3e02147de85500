import Verif.Model.Counter
import Verif.Spec.Scheme
import Verif.Spec.Lut

/-!
# Specification of the encrypted counters

`GateScheme.Sound` is what the proofs assume about the additional operations of the older TFHEpp.
-/

namespace Homfa

variable {N n l : Nat}

/-- Gates and the level 0 circuit bootstrapping are correct on ciphertexts whose error is at most `m`; the error of a gate's
output is at most `g`. -/
structure GateScheme.Sound (S : GateScheme N n l) (δ : Noise) (Enc : Gsw l N → Bool → Prop) (m g : Nat) : Prop where
  base : S.toScheme.Sound δ Enc
  homOR : ∀ x y a b, Near m (x.phase S.sk.lvl0) (eighth a) → Near m (y.phase S.sk.lvl0) (eighth b) →
    Near g ((S.homOR x y).phase S.sk.lvl0) (eighth (a || b))
  homANDNY : ∀ x y a b, Near m (x.phase S.sk.lvl0) (eighth a) → Near m (y.phase S.sk.lvl0) (eighth b) →
    Near g ((S.homANDNY x y).phase S.sk.lvl0) (eighth (!a && b))
  cb01 : ∀ c b, Near m (c.phase S.sk.lvl0) (eighth b) → Enc (S.cb01 c) b

/-- The order of a parallel reduction of `k` operands: every operand is used exactly once. -/
def RedTree.Valid (t : RedTree) (k : Nat) : Prop := t.leaves.Perm (List.range k)

/-- An operation on a counter; `minus` takes the encrypted borrow bit. -/
inductive CtrOp (n : Nat) where
  | reset
  | minus (borrow : TLWE n)

/-- what a client does with a counter -/
def Counter.run (S : GateScheme N n l) (ctr : Counter N) (ops : List (CtrOp n)) : Res (Counter N) :=
  ops.foldlM (fun ctr op => match op with
    | .reset => ctr.reset
    | .minus b => ctr.minusOne S b) ctr

/-- `CtrMeans S m op none`: a reset; `CtrMeans S m op (some b)`: subtraction of the encrypted bit `b`. -/
inductive CtrMeans (S : GateScheme N n l) (m : Nat) : CtrOp n → Option Bool → Prop
  | reset : CtrMeans S m .reset none
  | minus {c b} : Near m (c.phase S.sk.lvl0) (eighth b) → CtrMeans S m (.minus c) (some b)

/-- The number a counter of `w` bits with initial value `init` holds after a history, starting from `v`. -/
def countdown (w init : Nat) (v : Nat) : List (Option Bool) → Nat
  | [] => v
  | none :: h => countdown w init (init % 2 ^ w) h
  | some b :: h => countdown w init ((v + 2 ^ w - b.toNat) % 2 ^ w) h

end Homfa
