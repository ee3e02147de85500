import Verif.Model.Scheme

/-!
# The decision tree of a set of words

To decide whether the bits of `n` ciphertexts form a word of a set, without any automaton: choose between the two remaining questions with
the first ciphertext, and so on down to the answers, which are constants.  There are `2 ^ n` of them.  No program would compute it so; it says
what is computed.
-/

namespace Homfa

variable {N n l : Nat}

/-- `tree S boot inputs words`: the choices are made with `CMUXFFT`, and the value of each node whose height is a multiple of `boot` is
bootstrapped (`S.bootHalf`, which extracts a sample, switches its key and makes it a new sample). -/
def tree (S : Scheme N n l) (boot : Nat) : List (Gsw l N) → (List Bool → Bool) → Res (TRLWE N)
  | [], words => .ok (if words [] then trivialTRLWE2 N else trivialTRLWEZero N)
  | c :: rest, words => do
    let one ← tree S boot rest fun w => words (true :: w)
    let zero ← tree S boot rest fun w => words (false :: w)
    let v := S.cmux c one zero
    if (rest.length + 1) % boot = 0 then S.bootHalf v else pure v

/-- the answer of a tree: the constant coefficient of its value -/
def treeAnswer (S : Scheme N n l) (boot : Nat) (inputs : List (Gsw l N)) (words : List Bool → Bool) : Res (TLWE N) := do
  let v ← tree S boot inputs words
  sampleExtractAt v 0

end Homfa
