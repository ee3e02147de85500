import Verif.Model.Shell

/-!
# Runs of the program that do not end normally

A run can stop at any moment: it is killed, the machine goes down, an assertion fails, an exception is thrown, the program exits with a
message.  `Interrupted` says which files and which output there may be then.

Simplifications: the bytes a program writes reach the file in the order in which they are written (output streams are buffered, so at any
moment the file may lack the last of them), opening an output file empties it, and nothing else changes.  What an interrupted command that
prints a text has printed is left open.
-/

namespace Homfa.Cli

variable {N n l : Nat}

/-- the commands that print a text and write no file, except `dec` and `run plain` (src/main.cpp:474-522) -/
def Call.isConverter : Call → Bool
  | .ltl2spec .. | .spec2spec .. | .spec2dot .. | .spec2att .. | .att2spec .. => true
  | _ => false

/-- The files and the output of a call (src/main.cpp:225-536, src/archive.hpp:50-65) that is stopped at some moment. -/
inductive Interrupted (L : Lib N n l) (fs : Files) : Call → Files × List Char → Prop
  /-- before the output file is opened or something is printed -/
  | early {c} : Interrupted L fs c (fs, [])
  | genkey (r : Nat) {out b} : b <+: L.saveKey (L.newKey r) → Interrupted L fs (.genkey out) (fs.set out b, [])
  | genbkey (r : Nat) {skey out k b} : readArchive L.loadKey (fs skey) = .ok k → b <+: L.saveBKey (L.newBKey r k) →
      Interrupted L fs (.genbkey skey out) (fs.set out b, [])
  /-- `bytes` is the input as it is after the output has been emptied, `written` what is written before the last assertion of
  `each_input_bit` -/
  | enc (rand : Nat → Nat) {skey input out ap k bytes rest m written b} : readArchive L.loadKey (fs skey) = .ok k →
      (fs.set out []) input = some bytes →
      inputBytes ap (encOne (L.client k) rand) bytes 0 (0, []) = .ok (rest, (m, written)) → b <+: written →
      Interrupted L fs (.enc skey input out ap) (fs.set out b, [])
  /-- the output was emptied, then the input could not be opened -/
  | encNoInput {skey input out ap k} : readArchive L.loadKey (fs skey) = .ok k →
      Interrupted L fs (.enc skey input out ap) (fs.set out [], [])
  | dec {skey input k c o} : readArchive L.loadKey (fs skey) = .ok k → readArchive L.loadRes (fs input) = .ok c →
      o <+: doDec (L.client k) c → Interrupted L fs (.dec skey input) (fs, o)
  | runOffline {spec input out boot bkey sanitize pre cs b s c p} : Fetch .reversed (fs input) (.ok (pre, cs)) →
      readArchive L.loadBKey (fs bkey) = .ok b → readSpec (fs spec) = .ok s →
      doRunOffline (L.server b) s (pre.headD 0) cs boot sanitize = .ok c → p <+: L.saveRes c →
      Interrupted L fs (.runOffline spec input out boot bkey sanitize) (fs.set out p, [])
  /-- in the loop, with an output directory: some ciphertexts `cs'` were processed, the files `rs` written and `f` begun -/
  | runReverseLoop {spec input out outDir freq boot isRev bkey sanitize pre cs b s g runner cs' q rs f c p} :
      Fetch .forward (fs input) (.ok (pre, cs)) → readArchive L.loadBKey (fs bkey) = .ok b → readSpec (fs spec) = .ok s →
      Graph.fromIstream s = .ok g → reverseMake (N := N) g boot isRev true sanitize = .ok runner → cs' <+: cs →
      onlineLoop (fun r c => r.eval (L.server b) c) (fun r => do let c ← r.result; pure (c, r)) outDir freq cs' 0 runner = .ok q →
      rs ++ [(f, c)] <+: q.1 → p <+: L.saveRes c →
      Interrupted L fs (.runReverse spec input out outDir freq boot isRev bkey sanitize) ((writeResults L fs rs).set (OutFile.path f) p, [])
  /-- the last output -/
  | runReverse {spec input out outDir freq boot isRev bkey sanitize pre cs b s rs f c p} : Fetch .forward (fs input) (.ok (pre, cs)) →
      readArchive L.loadBKey (fs bkey) = .ok b → readSpec (fs spec) = .ok s →
      doRunReverse (L.server b) s (pre.getLastD 0) cs out outDir freq boot isRev sanitize = .ok (rs ++ [(f, c)]) → p <+: L.saveRes c →
      Interrupted L fs (.runReverse spec input out outDir freq boot isRev bkey sanitize) ((writeResults L fs rs).set (OutFile.path f) p, [])
  | runBlock {spec input out queue bkey sanitize pre cs b s c p} : Fetch .forward (fs input) (.ok (pre, cs)) →
      readSpec (fs spec) = .ok s → readArchive L.loadBKey (fs bkey) = .ok b →
      doRunBlock (L.server b) s cs queue sanitize = .ok c → p <+: L.saveRes c →
      Interrupted L fs (.runBlock spec input out queue bkey sanitize) (fs.set out p, [])
  | runFlutLoop {spec input out outDir freq queue boot bkey maxSecond debugSkey sanitize pre cs b s g runner cs' q rs f c p} :
      Fetch .forward (fs input) (.ok (pre, cs)) → readArchive L.loadBKey (fs bkey) = .ok b → readSpec (fs spec) = .ok s →
      Graph.fromIstream s = .ok g → Flut.make (N := N) g (maxSecond.getD 8) queue boot sanitize = .ok runner → cs' <+: cs →
      onlineLoop (fun r c => Flut.evalOne (L.server b) r c) (fun r => Flut.result (L.server b) r) outDir freq cs' 0 runner = .ok q →
      rs ++ [(f, c)] <+: q.1 → p <+: L.saveRes c → readDebugKey L fs debugSkey = .ok () →
      Interrupted L fs (.runFlut spec input out outDir freq queue boot bkey maxSecond debugSkey sanitize)
        ((writeResults L fs rs).set (OutFile.path f) p, [])
  | runFlut {spec input out outDir freq queue boot bkey maxSecond debugSkey sanitize pre cs b s rs f c p} :
      Fetch .forward (fs input) (.ok (pre, cs)) → readSpec (fs spec) = .ok s → readArchive L.loadBKey (fs bkey) = .ok b →
      doRunFlut (L.server b) s (pre.getLastD 0) cs out outDir freq queue boot maxSecond sanitize = .ok (rs ++ [(f, c)]) →
      p <+: L.saveRes c → readDebugKey L fs debugSkey = .ok () →
      Interrupted L fs (.runFlut spec input out outDir freq queue boot bkey maxSecond debugSkey sanitize)
        ((writeResults L fs rs).set (OutFile.path f) p, [])
  | runPlain {spec input ap s out o} : readSpec (fs spec) = .ok s → doRunPlain s (fs input) ap = .ok out → o <+: out →
      Interrupted L fs (.runPlain spec input ap) (fs, o)
  | converter {c o} : c.isConverter = true → Interrupted L fs c (fs, o)

/-- A run of `homfa` with the given words that is stopped at some moment. (src/main.cpp:590-755) -/
inductive RunInterrupted (L : Lib N n l) (fs : Files) (toks : List String) : Files × List Char → Prop
  | call {c r} : homfaMain (fun f => (fs f).isSome) toks = .ok (some c) → Interrupted L fs c r → RunInterrupted L fs toks r
  | parsing : RunInterrupted L fs toks (fs, [])

/-- A run that ends normally (`true`) or is stopped at some moment (`false`). (src/main.cpp:590-755) -/
def Attempt (L : Lib N n l) (fs : Files) (toks : List String) : Bool → Files × List Char → Prop
  | true, r => RunHomfa L [] fs toks (.ok r)
  | false, r => RunInterrupted L fs toks r

/-- A sequence of runs, each started after the one before has ended in one way or another; `ends` tells which ended normally.  The text is
what they all print. (processes started by a script such as test_homfa.sh:25-59) -/
inductive CrashScript (L : Lib N n l) : Files → List (List String) → List Bool → Files × List Char → Prop
  | nil {fs} : CrashScript L fs [] [] (fs, [])
  | next {fs toks e fs1 o1 rest ends r} : Attempt L fs toks e (fs1, o1) → CrashScript L fs1 rest ends r →
      CrashScript L fs (toks :: rest) (e :: ends) (r.1, o1 ++ r.2)

end Homfa.Cli
