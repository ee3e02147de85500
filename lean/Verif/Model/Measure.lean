import Verif.Model.WholeTest

/-!
# The measuring scripts (bench.sh and bench_ltl.sh)

Simplifications: the name of the log, which contains the date, is any name; `multitime`, `tee`, `date` and `echo` are not part of the code and do
not touch other files; what `multitime` prints is any text, and it may give up before its five runs are over (it need not even be installed:
like the exit status of the runs, that is lost in the pipe, because the scripts do not set `pipefail`).  The specs, formulas and inputs are any
lists.
-/

namespace Homfa.Cli

variable {N n l : Nat}

/-- `multitime -n5 homfa toks` (bench.sh:19, 30, bench_ltl.sh:13, 28), with at most the given number of runs.  A run that fails may leave any
files, but one whose words are refused leaves everything as it was. -/
inductive Timed (L : Lib N n l) (toks : List String) : Nat → Files → Files → Prop
  | done {k fs} : Timed L toks k fs fs
  | ran {k fs fs1 out fs'} : RunHomfa L [] fs toks (.ok (fs1, out)) → Timed L toks k fs1 fs' → Timed L toks (k + 1) fs fs'
  | refused {k fs fs'} : homfaMain (fun f => (fs f).isSome) toks = .ok none → Timed L toks k fs fs' → Timed L toks (k + 1) fs fs'
  | failed {k fs e fs1 fs'} : homfaMain (fun f => (fs f).isSome) toks ≠ .ok none → RunHomfa L [] fs toks (.error e) → Timed L toks k fs1 fs' →
      Timed L toks (k + 1) fs fs'

/-- a text is appended to a file (`tee -a`, `>>`) (bench.sh:31, bench_ltl.sh:23) -/
def Files.append (fs : Files) (file : String) (text : List Byte) : Files := fs.set file ((fs file).getD [] ++ text)

/-- the words of `enc` (bench.sh:29) -/
def benchEnc (input : String) : List String := ["enc", "--key", "_test_sk", "--ap", "1", "--in", input, "--out", "_test_in"]

/-- the words to be timed (bench.sh:30) -/
def benchTimed (spec : String) : List String :=
  ["run-offline-dfa", "--bkey", "_test_bk", "--spec", spec, "--in", "_test_in", "--out", "_test_out"]

/-- the words of `dec` (bench.sh:32, bench_ltl.sh:30) -/
def benchDec : List String := ["dec", "--key", "_test_sk", "--in", "_test_out"]

/-- What `dec` has printed when it is at the end of a pipe: nothing if it has failed, since it prints after it has read both files
(src/main.cpp:466-472). -/
inductive DecPrints (L : Lib N n l) (fs : Files) : List Char → Prop
  | ok {fs' out} : RunHomfa L [] fs benchDec (.ok (fs', out)) → DecPrints L fs out
  | failed {e} : RunHomfa L [] fs benchDec (.error e) → DecPrints L fs []

/-- `grep "Result (bool): true"` (bench.sh:32) finds a line; in a basic regular expression the parentheses stand for themselves. -/
def GrepTrue (out : List Char) : Prop := "Result (bool): true".toList <:+: out

/-- One round of bench.sh (bench.sh:29-33): the files after it, or `none` when it stops the script (`-e`, bench.sh:1). -/
inductive BenchRound (L : Lib N n l) (log spec input : String) (fs : Files) : Option Files → Prop
  | encFails {e} : RunHomfa L [] fs (benchEnc input) (.error e) → BenchRound L log spec input fs none
  | found {fs1 o fs2 text out} : RunHomfa L [] fs (benchEnc input) (.ok (fs1, o)) → Timed L (benchTimed spec) 5 fs1 fs2 →
      DecPrints L (fs2.append log text) out → GrepTrue out → BenchRound L log spec input fs (some (fs2.append log text))
  | notFound {fs1 o fs2 text out} : RunHomfa L [] fs (benchEnc input) (.ok (fs1, o)) → Timed L (benchTimed spec) 5 fs1 fs2 →
      DecPrints L (fs2.append log text) out → ¬GrepTrue out → BenchRound L log spec input fs none

/-- the rounds one after the other; `true` when the script ends with status 0 (bench.sh:27-35) -/
inductive BenchRounds (L : Lib N n l) (log : String) : Files → List (String × String) → Bool → Prop
  | done {fs} : BenchRounds L log fs [] true
  | next {fs p fs' ps ok} : BenchRound L log p.1 p.2 fs (some fs') → BenchRounds L log fs' ps ok → BenchRounds L log fs (p :: ps) ok
  | stop {fs p ps} : BenchRound L log p.1 p.2 fs none → BenchRounds L log fs (p :: ps) false

/-- bench.sh (bench.sh:22-35) with any specs and inputs; `true` when it ends with status 0 -/
inductive BenchScript (L : Lib N n l) (log : String) (specs inputs : List String) (fs : Files) : Bool → Prop
  | noKey : MakeIfMissing L fs "_test_sk" ["genkey", "--out", "_test_sk"] none → BenchScript L log specs inputs fs false
  | noBKey {fs1} : MakeIfMissing L fs "_test_sk" ["genkey", "--out", "_test_sk"] (some fs1) →
      MakeIfMissing L fs1 "_test_bk" ["genbkey", "--key", "_test_sk", "--out", "_test_bk"] none → BenchScript L log specs inputs fs false
  | rounds {fs1 fs2 ok} : MakeIfMissing L fs "_test_sk" ["genkey", "--out", "_test_sk"] (some fs1) →
      MakeIfMissing L fs1 "_test_bk" ["genbkey", "--key", "_test_sk", "--out", "_test_bk"] (some fs2) →
      BenchRounds L log fs2 (specs.flatMap fun s => inputs.map fun i => (s, i)) ok → BenchScript L log specs inputs fs ok

/-- the words of `enc` (bench_ltl.sh:25) -/
def ltlEnc (input : String) : List String := ["enc", "--ap", "3", "--key", "_test_sk", "--in", input, "--out", "_test_in"]

/-- the words to be timed (bench_ltl.sh:28) -/
def ltlTimed : List String :=
  ["run-online-dfa", "--method", "qtrlwe2", "--bkey", "_test_bk", "--spec", "_test_spec", "--in", "_test_in", "--out", "_test_out"]

/-- the bytes of what a command prints (bench_ltl.sh:24) -/
def outBytes (out : List Char) : List Byte := out.map fun c => BitVec.ofNat 8 c.toNat

/-- One round of bench_ltl.sh (bench_ltl.sh:23-30): the files after it and what its last command prints, or `none` when it stops the script
(`-e`, bench_ltl.sh:1). -/
inductive LtlRound (L : Lib N n l) (log fml input : String) (fs : Files) : Option (Files × List Char) → Prop
  | ltlFails {title e} : RunHomfa L [] ((fs.append log title).set "_test_spec" []) ["ltl2spec", fml, "3"] (.error e) →
      LtlRound L log fml input fs none
  | encFails {title fs1 spec e} : RunHomfa L [] ((fs.append log title).set "_test_spec" []) ["ltl2spec", fml, "3"] (.ok (fs1, spec)) →
      RunHomfa L [] (fs1.set "_test_spec" (outBytes spec)) (ltlEnc input) (.error e) → LtlRound L log fml input fs none
  | decFails {title fs1 spec fs2 o fs3 text e} :
      RunHomfa L [] ((fs.append log title).set "_test_spec" []) ["ltl2spec", fml, "3"] (.ok (fs1, spec)) →
      RunHomfa L [] (fs1.set "_test_spec" (outBytes spec)) (ltlEnc input) (.ok (fs2, o)) → Timed L ltlTimed 5 fs2 fs3 →
      RunHomfa L [] (fs3.append log text) benchDec (.error e) → LtlRound L log fml input fs none
  | ends {title fs1 spec fs2 o fs3 text fs4 out} :
      RunHomfa L [] ((fs.append log title).set "_test_spec" []) ["ltl2spec", fml, "3"] (.ok (fs1, spec)) →
      RunHomfa L [] (fs1.set "_test_spec" (outBytes spec)) (ltlEnc input) (.ok (fs2, o)) → Timed L ltlTimed 5 fs2 fs3 →
      RunHomfa L [] (fs3.append log text) benchDec (.ok (fs4, out)) → LtlRound L log fml input fs (some (fs4, out))

/-- the rounds one after the other, and the answers of `dec` (bench_ltl.sh:21-32) -/
inductive LtlRounds (L : Lib N n l) (log : String) : Files → List (String × String) → Option (Files × List (List Char)) → Prop
  | done {fs} : LtlRounds L log fs [] (some (fs, []))
  | next {fs p fs1 out ps r} : LtlRound L log p.1 p.2 fs (some (fs1, out)) → LtlRounds L log fs1 ps r →
      LtlRounds L log fs (p :: ps) (r.map fun q => (q.1, out :: q.2))
  | stop {fs p ps} : LtlRound L log p.1 p.2 fs none → LtlRounds L log fs (p :: ps) none

/-- bench_ltl.sh (bench_ltl.sh:16-32) with any formulas and inputs: the files and the answers when it ends with status 0, `none` otherwise -/
inductive LtlScript (L : Lib N n l) (log : String) (fmls inputs : List String) (fs : Files) : Option (Files × List (List Char)) → Prop
  | noKey : MakeIfMissing L fs "_test_sk" ["genkey", "--out", "_test_sk"] none → LtlScript L log fmls inputs fs none
  | noBKey {fs1} : MakeIfMissing L fs "_test_sk" ["genkey", "--out", "_test_sk"] (some fs1) →
      MakeIfMissing L fs1 "_test_bk" ["genbkey", "--key", "_test_sk", "--out", "_test_bk"] none → LtlScript L log fmls inputs fs none
  | rounds {fs1 fs2 r} : MakeIfMissing L fs "_test_sk" ["genkey", "--out", "_test_sk"] (some fs1) →
      MakeIfMissing L fs1 "_test_bk" ["genbkey", "--key", "_test_sk", "--out", "_test_bk"] (some fs2) →
      LtlRounds L log fs2 (fmls.flatMap fun s => inputs.map fun i => (s, i)) r → LtlScript L log fmls inputs fs r

/-- the specs of bench.sh (bench.sh:3-9) -/
def benchSpecs : List String :=
  ["test/bench-64.spec", "test/bench-128.spec", "test/bench-256.spec", "test/bench-512.spec", "test/bench-1024.spec"]

/-- the inputs of bench.sh (bench.sh:11-17) -/
def benchInputs : List String :=
  ["test/bench-1024.in", "test/bench-2048.in", "test/bench-4096.in", "test/bench-8192.in", "test/bench-16384.in"]

/-- the formulas of bench_ltl.sh (bench_ltl.sh:3-5) -/
def ltlFormulas : List String := ["XXXX(!p0 | XXXX(!p1 W X!p2))"]

/-- the inputs of bench_ltl.sh (bench_ltl.sh:6-11) -/
def ltlInputs : List String := ["test/bench-1200.in", "test/bench-2400.in", "test/bench-3600.in", "test/bench-4800.in"]

end Homfa.Cli
