import Verif.Spec.Calls
import Mathlib.Algebra.BigOperators.Group.Finset.Basic

/-!
# The library calls of a whole run, listed from the numbers of live states

`len` is the number of ciphertexts, `live j` the number of states that `j` bits can lead to.
-/

namespace Homfa

/-- `run offline` and `run reverse`: for the i-th ciphertext `gates i` CMUX gates; after every `boot`-th one as many bootstrappings, each a key
switching and a blind rotation. -/
def streamCalls (boot : Nat) (gates : Nat → Nat) (len : Nat) : List CallKind :=
  (List.range len).flatMap fun i => List.replicate (gates i) .cmux ++
    if (i + 1) % boot = 0 then (List.replicate (gates i) [.keySwitch, .blindRotate]).flatten else []

/-- A queue of `q` cuts the input into blocks: the b-th one starts at `b * q`, and the last one may be shorter. -/
def inBlocks (q len : Nat) (calls : Nat → Nat → Nat → List CallKind) : List CallKind :=
  (List.range ((len + q - 1) / q)).flatMap fun b => calls b (b * q) (min q (len - b * q))

/-- `run block`, the block of `k` ciphertexts from position `s`: a CMUX gate for every position and state live there; unless one state only is live
at `s`, a circuit bootstrapping for every bit of the number of live states, and a lookup table over these bits. -/
def blockCalls (live : Nat → Nat) (s k : Nat) : List CallKind :=
  List.replicate (∑ j ∈ Finset.range k, live (s + j)) .cmux ++
    if live s = 1 then []
    else List.replicate (Nat.log2 (live s) + 1) .circuitBootstrapping ++ List.replicate (2 ^ (Nat.log2 (live s) + 1) - 1) .cmux

/-- `run flut`, the b-th block, of `k` ciphertexts from position `s`: two lookup tables, and for every state live after the block a packing, with a
bootstrapping before it in every `boot`-th block.  The second table has half of the ciphertexts, or as many as fit: `maxSecond` less the bits
of the number of a live state. -/
def flutCalls (live : Nat → Nat) (maxSecond boot b s k : Nat) : List CallKind :=
  let second := min (k / 2) (maxSecond - Nat.clog 2 (live (s + k)))
  List.replicate (2 ^ (k - second) - 1) .cmux ++ List.replicate (2 ^ second - 1) .cmux ++
    (List.replicate (live (s + k)) (if (b + 1) % boot = 0 then [.keySwitch, .blindRotate, .toTrlwe] else [.toTrlwe])).flatten

end Homfa
