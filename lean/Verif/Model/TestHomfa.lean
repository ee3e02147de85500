import Verif.Model.Shell

/-!
# The checks of the end-to-end test (test_homfa.sh)

Simplifications: the file `_test_stderr`, `test0` and the test of `spec2att` and `att2spec` (test_homfa.sh:71-80) are in Verif.Model.WholeTest; a run of `homfa` with
undefined behaviour counts as one that fails.
-/

namespace Homfa.Cli

variable {N n l : Nat}

/-- `enc_run_dec` (test_homfa.sh:25-59): the lines after `$HOMFA`; `none` when the mode is not known.  Each is run by `nostderr`, which leaves the
function when one fails. -/
def encRunDec (mode ap spec input : String) : Option (List (List String)) :=
  let enc := ["enc", "--ap", ap, "--key", "_test_sk", "--in", input, "--out", "_test_in"]
  let dec := ["dec", "--key", "_test_sk", "--in", "_test_out"]
  if mode = "offline-dfa" then
    some [enc, ["run", "offline", "--bkey", "_test_bk", "--spec", spec, "--in", "_test_in", "--out", "_test_out", "--bootstrapping-freq", "8000"],
      dec]
  else if mode = "online-dfa-reversed" then
    some [enc, ["run", "reversed", "--bkey", "_test_bk", "--spec", spec, "--in", "_test_in", "--out", "_test_out", "--out-freq", "15",
      "--bootstrapping-freq", "8000"], dec]
  else if mode = "online-dfa-reversed-with-rev-spec" then
    some [enc, ["run", "reversed", "--bkey", "_test_bk", "--spec", spec, "--in", "_test_in", "--out", "_test_out", "--spec-reversed",
      "--out-freq", "15", "--bootstrapping-freq", "8000"], dec]
  else if mode = "online-dfa-qtrlwe2" then
    some [enc, ["run", "flut", "--bkey", "_test_bk", "--spec", spec, "--in", "_test_in", "--out", "_test_out", "--out-freq", "15",
      "--max-second-lut-depth", "8", "--queue-size", "15", "--bootstrapping-freq", "1"], dec]
  else if mode = "dfa-plain" then some [["run", "plain", "--ap", ap, "--spec", spec, "--in", input]]
  else if mode = "online-dfa-blockbackstream" then
    some [enc, ["run", "block", "--bkey", "_test_bk", "--spec", spec, "--in", "_test_in", "--out", "_test_out", "--out-freq", "15",
      "--queue-size", "15"], dec]
  else none

/-- `check_true` and `check_false` with their arguments (test_homfa.sh:61-69) -/
structure SuiteCheck where
  expect : Bool
  mode : String
  ap : String
  spec : String
  input : String

/-- what a command substitution makes of the output (test_homfa.sh:62, 67) -/
def substituted (out : List Char) : List Char := (out.reverse.dropWhile (· == '\n')).reverse

/-- One check (test_homfa.sh:61-69): the files after a check that passes; `none` when it stops the script. -/
inductive CheckRun (L : Lib N n l) (fs : Files) (c : SuiteCheck) : Option Files → Prop
  | pass {cmds fs' out} : encRunDec c.mode c.ap c.spec c.input = some cmds → Script L fs cmds (.ok (fs', out)) →
      substituted out = (if c.expect then ['1'] else ['0']) → CheckRun L fs c (some fs')
  | wrong {cmds fs' out} : encRunDec c.mode c.ap c.spec c.input = some cmds → Script L fs cmds (.ok (fs', out)) →
      substituted out ≠ (if c.expect then ['1'] else ['0']) → CheckRun L fs c none
  | fails {cmds e} : encRunDec c.mode c.ap c.spec c.input = some cmds → Script L fs cmds (.error e) → CheckRun L fs c none
  | invalid : encRunDec c.mode c.ap c.spec c.input = none → CheckRun L fs c none

/-- the checks one after the other; `false` when one of them stops the script (test_homfa.sh:86-144) -/
inductive ChecksRun (L : Lib N n l) : Files → List SuiteCheck → Bool → Prop
  | done {fs} : ChecksRun L fs [] true
  | next {fs c fs' cs ok} : CheckRun L fs c (some fs') → ChecksRun L fs' cs ok → ChecksRun L fs (c :: cs) ok
  | stop {fs c cs} : CheckRun L fs c none → ChecksRun L fs (c :: cs) false

/-- `[ -f name ] || nostderr $HOMFA toks` (test_homfa.sh:83-84) -/
inductive MakeIfMissing (L : Lib N n l) (fs : Files) (name : String) (toks : List String) : Option Files → Prop
  | there : (fs name).isSome → MakeIfMissing L fs name toks (some fs)
  | made {fs' out} : fs name = none → RunHomfa L [] fs toks (.ok (fs', out)) → MakeIfMissing L fs name toks (some fs')
  | fails {e} : fs name = none → RunHomfa L [] fs toks (.error e) → MakeIfMissing L fs name toks none

/-- The script from the preparation of the keys on (test_homfa.sh:82-140), with any list of checks. -/
inductive SuiteRun (L : Lib N n l) (fs : Files) (cs : List SuiteCheck) : Bool → Prop
  | noKey : MakeIfMissing L fs "_test_sk" ["genkey", "--out", "_test_sk"] none → SuiteRun L fs cs false
  | noBKey {fs1} : MakeIfMissing L fs "_test_sk" ["genkey", "--out", "_test_sk"] (some fs1) →
      MakeIfMissing L fs1 "_test_bk" ["genbkey", "--key", "_test_sk", "--out", "_test_bk"] none → SuiteRun L fs cs false
  | checks {fs1 fs2 ok} : MakeIfMissing L fs "_test_sk" ["genkey", "--out", "_test_sk"] (some fs1) →
      MakeIfMissing L fs1 "_test_bk" ["genbkey", "--key", "_test_sk", "--out", "_test_bk"] (some fs2) → ChecksRun L fs2 cs ok →
      SuiteRun L fs cs ok

/-- The checks of the script (test_homfa.sh:87-140), in order. -/
def repoChecks : List SuiteCheck := [
  ⟨true, "dfa-plain", "2", "test/01.spec", "test/01-01.in"⟩,
  ⟨false, "dfa-plain", "2", "test/01.spec", "test/01-02.in"⟩,
  ⟨true, "dfa-plain", "2", "test/01.spec", "test/01-03.in"⟩,
  ⟨false, "dfa-plain", "2", "test/01.spec", "test/01-04.in"⟩,
  ⟨true, "dfa-plain", "2", "test/01.spec", "test/01-05.in"⟩,
  ⟨false, "dfa-plain", "2", "test/01.spec", "test/01-06.in"⟩,
  ⟨true, "dfa-plain", "2", "test/01.spec", "test/01-07.in"⟩,
  ⟨false, "dfa-plain", "2", "test/01.spec", "test/01-08.in"⟩,
  ⟨true, "dfa-plain", "9", "test/10.spec", "test/10-01.in"⟩,
  ⟨false, "dfa-plain", "9", "test/10.spec", "test/10-02.in"⟩,
  ⟨true, "dfa-plain", "9", "test/10.spec", "test/10-03.in"⟩,
  ⟨true, "offline-dfa", "2", "test/01.spec", "test/01-01.in"⟩,
  ⟨false, "offline-dfa", "2", "test/01.spec", "test/01-02.in"⟩,
  ⟨true, "offline-dfa", "2", "test/01.spec", "test/01-03.in"⟩,
  ⟨false, "offline-dfa", "2", "test/01.spec", "test/01-04.in"⟩,
  ⟨true, "offline-dfa", "2", "test/01.spec", "test/01-05.in"⟩,
  ⟨false, "offline-dfa", "2", "test/01.spec", "test/01-06.in"⟩,
  ⟨true, "offline-dfa", "9", "test/10.spec", "test/10-01.in"⟩,
  ⟨false, "offline-dfa", "9", "test/10.spec", "test/10-02.in"⟩,
  ⟨true, "offline-dfa", "9", "test/10.spec", "test/10-03.in"⟩,
  ⟨true, "online-dfa-reversed", "2", "test/01.spec", "test/01-07.in"⟩,
  ⟨false, "online-dfa-reversed", "2", "test/01.spec", "test/01-08.in"⟩,
  ⟨true, "online-dfa-reversed", "2", "test/01.spec", "test/01-01.in"⟩,
  ⟨false, "online-dfa-reversed", "2", "test/01.spec", "test/01-02.in"⟩,
  ⟨true, "online-dfa-reversed", "2", "test/01.spec", "test/01-03.in"⟩,
  ⟨true, "online-dfa-reversed-with-rev-spec", "2", "test/01_rev.spec", "test/01-07.in"⟩,
  ⟨false, "online-dfa-reversed-with-rev-spec", "2", "test/01_rev.spec", "test/01-08.in"⟩,
  ⟨true, "online-dfa-reversed", "9", "test/10.spec", "test/10-01.in"⟩,
  ⟨false, "online-dfa-reversed", "9", "test/10.spec", "test/10-02.in"⟩,
  ⟨true, "online-dfa-reversed", "9", "test/10.spec", "test/10-03.in"⟩,
  ⟨true, "online-dfa-qtrlwe2", "2", "test/01.spec", "test/01-07.in"⟩,
  ⟨false, "online-dfa-qtrlwe2", "2", "test/01.spec", "test/01-08.in"⟩,
  ⟨true, "online-dfa-qtrlwe2", "2", "test/01.spec", "test/01-01.in"⟩,
  ⟨false, "online-dfa-qtrlwe2", "2", "test/01.spec", "test/01-02.in"⟩,
  ⟨true, "online-dfa-qtrlwe2", "2", "test/01.spec", "test/01-03.in"⟩,
  ⟨true, "online-dfa-qtrlwe2", "9", "test/10.spec", "test/10-01.in"⟩,
  ⟨false, "online-dfa-qtrlwe2", "9", "test/10.spec", "test/10-02.in"⟩,
  ⟨true, "online-dfa-qtrlwe2", "9", "test/10.spec", "test/10-03.in"⟩,
  ⟨true, "online-dfa-blockbackstream", "2", "test/01.spec", "test/01-07.in"⟩,
  ⟨false, "online-dfa-blockbackstream", "2", "test/01.spec", "test/01-08.in"⟩,
  ⟨true, "online-dfa-blockbackstream", "2", "test/01.spec", "test/01-01.in"⟩,
  ⟨false, "online-dfa-blockbackstream", "2", "test/01.spec", "test/01-02.in"⟩,
  ⟨true, "online-dfa-blockbackstream", "2", "test/01.spec", "test/01-03.in"⟩,
  ⟨true, "online-dfa-blockbackstream", "9", "test/10.spec", "test/10-01.in"⟩,
  ⟨false, "online-dfa-blockbackstream", "9", "test/10.spec", "test/10-02.in"⟩,
  ⟨true, "online-dfa-blockbackstream", "9", "test/10.spec", "test/10-03.in"⟩]

end Homfa.Cli
