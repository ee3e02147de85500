import Verif.Model.Shell
import Verif.Spec.Scheme

/-! # What is assumed of the libraries -/

namespace Homfa.Cli

variable {N n l : Nat}

/-- the scheme a key pair makes up -/
def Lib.pair (L : Lib N n l) (k : L.Key) (b : L.BKey) : Scheme N n l :=
  { sk := L.secret k, cmux := L.cmux, iks := L.iks b, blindRotate := L.blindRotate b, tlwe2trlwe := L.tlwe2trlwe b, cb := L.cb b,
    encrypt := L.encrypt k }

/-- Archives read back what was written, and a generated key pair is sound. -/
structure Lib.Sound (L : Lib N n l) (δ : Noise) (Enc : L.Key → Gsw l N → Bool → Prop) : Prop where
  key : ∀ k, L.loadKey (L.saveKey k) = some k
  bkey : ∀ b, L.loadBKey (L.saveBKey b) = some b
  res : ∀ c, L.loadRes (L.saveRes c) = some c
  pair : ∀ r r', (L.pair (L.newKey r) (L.newBKey r' (L.newKey r))).Sound δ (Enc (L.newKey r))

/-- a word that can be the value of an option: it does not begin with a dash -/
def Word (f : String) : Prop := f.toList.head? ≠ some '-'

/-- Names for the spec, the input, the two keys, the ciphertexts and the result: words that are pairwise different. -/
structure Names (S I K B C R : String) : Prop where
  words : ∀ f ∈ [S, I, K, B, C, R], Word f
  distinct : [S, I, K, B, C, R].Nodup

/-- Names that may coincide where this does no harm: the spec and the input are not overwritten by a key or the ciphertexts, the keys and the
ciphertexts have different names, and the result does not overwrite the secret key. -/
structure Usable (S I K B C R : String) : Prop where
  words : ∀ f ∈ [S, I, K, B, C, R], Word f
  spec : S ∉ [K, B, C]
  input : I ∉ [K, B, C]
  made : [K, B, C].Nodup
  result : R ≠ K

/-- Every run of the command lines `cmds` started with the files `fs` ends normally, prints `out` and changes no files but `changed`;
and there is such a run. -/
def AlwaysPrints (L : Lib N n l) (fs : Files) (cmds : List (List String)) (out : List Char) (changed : List String) : Prop :=
  (∃ r, Script L fs cmds r) ∧ ∀ r, Script L fs cmds r → ∃ fs', r = .ok (fs', out) ∧ ∀ f, f ∉ changed → fs' f = fs f

end Homfa.Cli
