import Verif.Spec.TfheAlg
import Verif.Spec.Shell

/-! # TFHE as the library behind the command line -/

namespace Homfa.Tfhe

open Homfa.Cli

variable {P : Params}

/-- the secret keys of the three levels -/
structure Keys (P : Params) where
  s0 : Fin P.n → Bool
  s1 : Fin (2 ^ P.k) → Bool
  s2 : Fin (2 ^ P.k2) → Bool

/-- the evaluation keys: ciphertexts only -/
structure EvalKey (P : Params) where
  ik10 : Fin (2 ^ P.k) → Fin P.t10 → Torus → TLWE P.n
  ik11 : Fin (2 ^ P.k) → Fin P.t11 → Torus → TRLWE (2 ^ P.k)
  pk21 : Bool → Option (Fin (2 ^ P.k2)) → Fin P.t21 → Torus → TRLWE (2 ^ P.k)
  bk01 : Fin P.n → Rows P.l (2 ^ P.k)
  bk02 : Fin P.n → Rows P.l2 (2 ^ P.k2)

/-- What the random number generator gives: a key for every call of `genkey`, masks and noises for every call of `genbkey`, and masks and noises for every encryption of a bit. -/
structure Random (P : Params) where
  keys : Nat → Keys P
  coins : Nat → Coins P
  a : Nat → Fin (2 * P.l) → Poly (2 ^ P.k)
  e : Nat → Fin (2 * P.l) → Poly (2 ^ P.k)

/-- all random choices behind a key pair -/
def Random.pair (R : Random P) (K : Keys P) (r : Nat) : Coins P :=
  { R.coins r with s0 := K.s0, s1 := K.s1, s2 := K.s2, a := R.a, e := R.e }

/-- a file format that reads back what was written -/
structure Archive (α : Type) where
  save : α → List Byte
  load : List Byte → Option α
  load_save : ∀ x, load (save x) = some x

/-- TFHE, some file formats, and Spot. -/
def lib (R : Random P) (ak : Archive (Keys P)) (ab : Archive (EvalKey P)) (ar : Archive (TLWE (2 ^ P.k))) (spot : String → Nat → Res Monitor) : Lib (2 ^ P.k) P.n P.l where
  Key := Keys P
  BKey := EvalKey P
  newKey := R.keys
  newBKey r K := let C := R.pair K r; ⟨C.ik10, C.ik11, C.pk21, C.bk01, C.bk02⟩
  secret K := ⟨keyOf K.s1, keyOf K.s0⟩
  encrypt K r b := ofRows (trgswEnc P.G (keyOf K.s1) (R.a r) (R.e r) b)
  cmux g c1 c0 := cmux P.G (toRows g) c1 c0
  iks E c := iks P.G10 E.ik10 c
  blindRotate E c v := blindRotate P.k P.G E.bk01 c v
  tlwe2trlwe E c := tlwe2trlwe P.G11 E.ik11 c
  cb E c := ofRows (circuitBootstrap P.k2 P.G2 E.bk02 P.G21 E.pk21 P.hs (iks P.G10 E.ik10 c))
  saveKey := ak.save
  loadKey := ak.load
  saveBKey := ab.save
  loadBKey := ab.load
  saveRes := ar.save
  loadRes := ar.load
  monitor := spot

/-- all noises are within the bounds, whatever keys are generated -/
def Bounds.Always (β : Bounds) (R : Random P) : Prop := ∀ r r', β.Hold P (R.pair (R.keys r) r')

end Homfa.Tfhe
