import Verif.Model.Test0
import Verif.Model.TestHomfa

/-!
# The whole end-to-end test (test_homfa.sh)

Simplifications: the file `_test_stderr` is left out; a run of `homfa` with undefined behaviour counts as one that fails; `cat`, `wc` and the shell
do not fail.
-/

namespace Homfa.Cli

variable {N n l : Nat}

/-- What `homfa` may have printed in a pipe, where its exit status does not count (there is no `pipefail`, test_homfa.sh:1): its output, or, if it
fails, anything. -/
def Piped (L : Lib N n l) (stdin : List Char) (fs : Files) (toks : List String) (out : List Char) : Prop :=
  (∃ fs', RunHomfa L stdin fs toks (.ok (fs', out))) ∨ ∃ e, RunHomfa L stdin fs toks (.error e)

/-- `cat file | $HOMFA spec2att | $HOMFA att2spec | wc -l` (test_homfa.sh:76); `wc -l` counts the newlines. -/
inductive RoundTripLines (L : Lib N n l) (fs : Files) (file : String) : Nat → Prop
  | mk {att spec} : Piped L (textOf ((fs file).getD [])) fs ["spec2att"] att → Piped L att fs ["att2spec"] spec →
      RoundTripLines L fs file (spec.count '\n')

/-- The script (test_homfa.sh:70-140) with any tables for test0, any spec and number of lines for the conversion, and any checks. -/
inductive WholeRun (L : Lib N n l) (tables : List DumpCheck) (file : String) (lines : Nat) (cs : List SuiteCheck) (fs : Files) : Bool → Prop
  | test0 {e} : Test0Run L tables fs (.error e) → WholeRun L tables file lines cs fs false
  | count {fs1 k} : Test0Run L tables fs (.ok fs1) → RoundTripLines L fs1 file k → k ≠ lines → WholeRun L tables file lines cs fs false
  | suite {fs1 ok} : Test0Run L tables fs (.ok fs1) → RoundTripLines L fs1 file lines → SuiteRun L fs1 cs ok →
      WholeRun L tables file lines cs fs ok

end Homfa.Cli
