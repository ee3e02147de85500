import Verif.Model.TestHomfa
import Verif.Spec.TestBench
import Verif.Props.Flut
import Verif.Props.Block

/-! # What the end-to-end test should tell -/

namespace Homfa.Cli

variable {N n l : Nat}

/-- the files the script writes -/
def scratchNames : List String := ["_test_sk", "_test_bk", "_test_in", "_test_out"]

/-- There are no keys of an earlier run, or a secret key alone, or a secret key and its evaluation key. -/
def KeysReady (L : Lib N n l) (fs : Files) : Prop :=
  (fs "_test_sk" = none ∧ fs "_test_bk" = none) ∨
  ∃ q, fs "_test_sk" = some (L.saveKey (L.newKey q)) ∧
    (fs "_test_bk" = none ∨ ∃ q', fs "_test_bk" = some (L.saveBKey (L.newBKey q' (L.newKey q))))

/-- The files a check names: a spec of the automaton `g`, and an input of complete records with the bits `w`, neither of them a file the script
writes. -/
structure SuiteCheck.Files (c : SuiteCheck) (fs : Files) (g : Graph) (w : List Bool) : Prop where
  ap : ∃ ap : Nat, c.ap = toString ap ∧ 0 < ap ∧ ap < 2 ^ 64 ∧ InputFile fs c.input ap w
  spec : SpecFile fs c.spec g
  words : Word c.spec ∧ Word c.input
  apart : c.spec ∉ scratchNames ∧ c.input ∉ scratchNames

/-- What a check asks: whether the spec accepts the input, or, with a spec that is said to be reversed, the input read backwards. -/
def SuiteCheck.verdict (c : SuiteCheck) (g : Graph) (w : List Bool) : Res Bool :=
  if c.mode = "online-dfa-reversed-with-rev-spec" then g.accepts w.reverse else g.accepts w

/-- The limits of the method a check is about, for worst-case errors `δ`. -/
structure SuiteCheck.Within (c : SuiteCheck) (N l : Nat) (δ : Noise) (fs : Cli.Files) (g : Graph) (w : List Bool) : Prop where
  known : c.mode ∈ ["offline-dfa", "online-dfa-reversed", "online-dfa-reversed-with-rev-spec", "online-dfa-qtrlwe2", "dfa-plain",
    "online-dfa-blockbackstream"]
  size : ∀ b, fs c.input = some b → 8 * b.length * blockSize l N < 2 ^ 63
  stream : c.mode ∈ ["offline-dfa", "online-dfa-reversed", "online-dfa-reversed-with-rev-spec"] → δ.br + 8000 * δ.cmux + δ.ks + δ.ms < 2 ^ 30
  flut : c.mode = "online-dfa-qtrlwe2" → 2 ^ 8 ≤ N ∧ ∃ W, LiveMax g W ∧ W < 2 ^ 8 ∧
    W * 2 ^ 7 * flutErr δ W 15 0 + 15 * δ.cmux + δ.ks + δ.ms < 2 ^ 30
  block : c.mode = "online-dfa-blockbackstream" → w ≠ [] ∧ ∃ B, LiveBits g B ∧ B < N ∧ B < 31 ∧ (15 + B) * δ.cmux + δ.cb < 2 ^ 29
  few : c.mode = "offline-dfa" → w.length < 2 ^ 31

end Homfa.Cli
