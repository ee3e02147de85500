import Verif.Model.Tape
import Verif.Spec.Shell

/-! # The README's commands with the random numbers given -/

namespace Homfa.Cli

variable {N n l : Nat}

/-- Archives read back what was written. -/
structure Lib.Archives (L : Lib N n l) : Prop where
  key : ∀ k, L.loadKey (L.saveKey k) = some k
  bkey : ∀ b, L.loadBKey (L.saveBKey b) = some b
  res : ∀ c, L.loadRes (L.saveRes c) = some c

/-- With the tapes `ts`, every run of the command lines `cmds` started with the files `fs` (whatever the schedules are) ends normally, prints `out` and changes no
files but `changed`; and there is such a run. -/
def PrintsOn (L : Lib N n l) (ts : Nat → Nat → Nat) (fs : Files) (cmds : List (List String)) (out : List Char) (changed : List String) : Prop :=
  (∃ r, ScriptOn L ts fs cmds r) ∧ ∀ r, ScriptOn L ts fs cmds r → ∃ fs', r = .ok (fs', out) ∧ ∀ f, f ∉ changed → fs' f = fs f

/-- the secret key `genkey` makes when it is the first command -/
def Lib.keyOn (L : Lib N n l) (ts : Nat → Nat → Nat) : L.Key := L.newKey (ts 0 0)

/-- that key and the evaluation key `genbkey` makes from it as the second command -/
def Lib.pairOn (L : Lib N n l) (ts : Nat → Nat → Nat) : Scheme N n l := L.pair (L.keyOn ts) (L.newBKey (ts 1 0) (L.keyOn ts))

end Homfa.Cli
