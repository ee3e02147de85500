import Verif.Model.BenchLog

/-!
# What homfa logs (src/main.cpp, src/error.hpp)

`error::initialize` (src/error.hpp:14-21) sends the messages of spdlog to standard error, one line each, with the time, the name "homfa" and the level.  The level
set in src/main.cpp:651-659 decides which are shown: errors always, information and warnings without `--quiet`, debug messages with `--verbose`.

Simplifications: only runs that end normally have a log here; standard error is not a terminal, so that spdlog does not colour the level; the debug messages of
`ltl2spec --verbose` (src/graph.cpp:661-820) are left open; the calls of `size()` before the first `next()` all give the same answer, so the answer that is logged is
taken to be the first.
-/

namespace Homfa.Cli

variable {N n l : Nat}

/-- `spdlog::info` (src/main.cpp:265-278) -/
def infoMsg (s : List Char) : Out Unit := ⟨[⟨"info", .message s⟩], .ok ()⟩

/-- `spdlog::warn` (src/main.cpp:408-410) -/
def warnMsg (s : List Char) : Out Unit := ⟨[⟨"warning", .message s⟩], .ok ()⟩

/-- `spdlog::debug` (src/main.cpp:349, 417, 458) -/
def debugMsg (verbose : Bool) (s : List Char) : Out Unit := ⟨debugRow verbose s, .ok ()⟩

/-- a `bool`, formatted by `{}` (src/main.cpp:221, 277) -/
def showBool (b : Bool) : List Char := if b then "true".toList else "false".toList

/-- `Graph::from_istream` (src/graph.cpp:128-194) with its messages -/
def specOut (text : List Char) : Out Graph :=
  ⟨(skipped { initSts := [], finalSts := [], delta := [], isDfa := true } (getlines '\n' text)).map skipRow, Graph.fromIstream text⟩

/-- `print_result` (src/main.cpp:219-223) with its message -/
def printResultOut (res : Bool) : Out (List Char) := do
  infoMsg ("Result (bool): ".toList ++ showBool res)
  pure (printResult res)

/-- `do_run_offline` (src/main.cpp:253-285) with its messages, after the keys have been read -/
def logRunOffline (verbose : Bool) (S : Scheme N n l) (specFile : Option (List Byte)) (size : Nat) (cs : List (Gsw l N)) (boot : Nat) (sanitize : Bool) :
    Out (TLWE N) := do
  let s ← quiet (readSpec specFile)
  let g ← specOut s
  let m ← quiet g.minimized
  let runner ← quiet (offlineMake m size boot true sanitize)
  infoMsg "Parameter:".toList
  infoMsg ("\tMode:\t".toList ++ "Offline FA Runner".toList)
  infoMsg ("\tInput size:\t".toList ++ showNat size)
  infoMsg ("\tState size:\t".toList ++ showNat runner.graph.size)
  infoMsg ("\tBootstrapping frequency:\t".toList ++ showNat boot)
  let total ← quiet (runner.totalCmux size)
  infoMsg ("\tTotal #CMUX:\t".toList ++ showNat total)
  infoMsg ("\tSanitization:\t".toList ++ showBool sanitize)
  infoMsg []
  let runner ← cs.foldlM (fun r c => Backstream.evalOut verbose S r c) runner
  quiet runner.result

/-- the messages about the output (src/main.cpp:334-339, 396-401) -/
def logDest (outFile outDir : Option String) (freq : Nat) : Out Unit := do
  match outFile with
  | some f => infoMsg ("\tOutput file name:\t".toList ++ f.toList)
  | none => pure ()
  match outDir with
  | some d => do
    infoMsg ("\tOutput directory:\t".toList ++ d.toList)
    infoMsg ("\tOutput frequency:\t".toList ++ showNat freq)
  | none => pure ()

/-- the loop of the online commands with its messages (src/main.cpp:348-357, 416-425) -/
def onlineLoopOut {ρ : Type} (verbose : Bool) (evalOne : ρ → Gsw l N → Out ρ) (result : ρ → Out (TLWE N × ρ)) (outDir : Option String) (outFreq : Nat) :
    List (Gsw l N) → Nat → ρ → Out (List (OutFile × TLWE N) × ρ)
  | [], _, r => pure ([], r)
  | c :: cs, i, r => do
    debugMsg verbose ("Processing input ".toList ++ showNat i)
    let r ← evalOne r c
    match outDir with
    | none => onlineLoopOut verbose evalOne result outDir outFreq cs (i + 1) r
    | some dir =>
      if outFreq = 0 then quiet (.error .ub)
      else if i % outFreq = outFreq - 1 then do
        let p ← result r
        let q ← onlineLoopOut verbose evalOne result outDir outFreq cs (i + 1) p.2
        pure ((.inDir dir (i + 1), p.1) :: q.1, q.2)
      else onlineLoopOut verbose evalOne result outDir outFreq cs (i + 1) r

/-- `do_run_reverse` (src/main.cpp:314-366) with its messages, after the key has been read -/
def logRunReverse (verbose : Bool) (S : Scheme N n l) (specFile : Option (List Byte)) (size hidden : Nat) (cs : List (Gsw l N)) (outFile outDir : Option String)
    (freq boot : Nat) (isSpecReversed sanitize : Bool) : Out (List (OutFile × TLWE N)) := do
  quiet (cassert ((outFile.isSome && !outDir.isSome) || (!outFile.isSome && outDir.isSome)))
  let s ← quiet (readSpec specFile)
  let g ← specOut s
  let runner ← quiet (reverseMake g boot isSpecReversed true sanitize)
  infoMsg "Parameter:".toList
  infoMsg ("\tMode:\t".toList ++ "Online FA Runner2 (reversed)".toList)
  infoMsg ("\tInput size:\t".toList ++ showNat size ++ " (hidden)".toList)
  infoMsg ("\tState size:\t".toList ++ showNat runner.graph.size)
  logDest outFile outDir freq
  infoMsg ("\tBootstrapping frequency:\t".toList ++ showNat boot)
  infoMsg ("\tSanitization:\t".toList ++ showBool sanitize)
  infoMsg []
  let p ← onlineLoopOut verbose (fun r c => Backstream.evalOut verbose S r c) (fun r => do let c ← quiet r.result; pure (c, r)) outDir freq cs 0 runner
  let f ← quiet (lastOut outFile outDir hidden)
  let c ← quiet p.2.result
  pure (p.1 ++ [(f, c)])

/-- `do_run_flut` (src/main.cpp:387-434) with its messages, after the spec and the keys have been read -/
def logRunFlut (verbose : Bool) (S : Scheme N n l) (g : Graph) (size hidden : Nat) (cs : List (Gsw l N)) (outFile outDir : Option String)
    (freq queue boot : Nat) (maxSecond : Option Nat) (sanitize : Bool) : Out (List (OutFile × TLWE N)) := do
  let runner ← quiet (Flut.make g (maxSecond.getD 8) queue boot sanitize)
  infoMsg "Parameter:".toList
  infoMsg ("\tMode:\t".toList ++ "Online FA Runner3 (qtrlwe2)".toList)
  infoMsg ("\tInput size:\t".toList ++ showNat size ++ " (hidden)".toList)
  infoMsg ("\tState size:\t".toList ++ showNat g.size)
  infoMsg ("\tQueue size:\t".toList ++ showNat runner.queueSize)
  logDest outFile outDir freq
  infoMsg ("\tBootstrapping frequency:\t".toList ++ showNat boot)
  infoMsg ("\tSanitization:\t".toList ++ showBool sanitize)
  infoMsg []
  if outDir.isSome ∧ queue = 0 then quiet (.error .ub)
  else if outDir.isSome ∧ freq % queue ≠ 0 then
    warnMsg ("Output frequency (".toList ++ showNat freq ++ ") is not the same as queue size (".toList ++ showNat queue ++ ")".toList)
  else pure ()
  let p ← onlineLoopOut verbose (fun r c => Flut.evalOneOut verbose S r c) (fun r => Flut.resultOut verbose S r) outDir freq cs 0 runner
  let f ← quiet (lastOut outFile outDir hidden)
  let c ← Flut.resultOut verbose S p.2
  pure (p.1 ++ [(f, c.1)])

/-- the loop of `do_run_block` (src/main.cpp:457-460) with its messages -/
def blockLoopOut (verbose : Bool) (S : Scheme N n l) : List (Gsw l N) → Nat → Block N l → Out (Block N l)
  | [], _, r => pure r
  | c :: cs, i, r => do
    debugMsg verbose ("Processing input ".toList ++ showNat i)
    let r ← quiet (r.evalOne S c)
    blockLoopOut verbose S cs (i + 1) r

/-- `do_run_block` (src/main.cpp:446-464) with its messages, after the spec and the key have been read -/
def logRunBlock (verbose : Bool) (S : Scheme N n l) (g : Graph) (size : Nat) (cs : List (Gsw l N)) (queue : Nat) (sanitize : Bool) : Out (TLWE N) := do
  let runner ← quiet (Block.make g queue sanitize)
  infoMsg "Parameter:".toList
  infoMsg ("\tMode:\t".toList ++ "Online FA Runner4 (block-backstream)".toList)
  infoMsg ("\tInput size:\t".toList ++ showNat size ++ " (hidden)".toList)
  infoMsg ("\tState size:\t".toList ++ showNat g.size)
  infoMsg ("\tQueue size:\t".toList ++ showNat runner.queueSize)
  infoMsg ("\tSanitization:\t".toList ++ showBool sanitize)
  infoMsg []
  let runner ← blockLoopOut verbose S cs 0 runner
  let c ← quiet (runner.result S)
  pure c.1

/-- The functions called by `main` (src/main.cpp:225-536) with their messages; for the run commands, when the input stream gives the sizes `pre` and the ciphertexts
`cs`. -/
inductive ExecLog (L : Lib N n l) (stdin : List Char) (fs : Files) (verbose : Bool) : Call → Out (Files × List Char) → Prop
  | genkey (r : Nat) {out} : ExecLog L stdin fs verbose (.genkey out) (pure (fs.set out (L.saveKey (L.newKey r)), []))
  | genbkey (r : Nat) {skey out} : ExecLog L stdin fs verbose (.genbkey skey out) (do
      let k ← quiet (readArchive L.loadKey (fs skey))
      pure (fs.set out (L.saveBKey (L.newBKey r k)), []))
  | enc (rand : Nat → Nat) {skey input out ap} : ExecLog L stdin fs verbose (.enc skey input out ap) (do
      let k ← quiet (readArchive L.loadKey (fs skey))
      let fs := fs.set out []
      let b ← quiet (doEnc (L.client k) rand (fs input) ap)
      pure (fs.set out b, []))
  | dec {skey input} : ExecLog L stdin fs verbose (.dec skey input) (do
      let k ← quiet (readArchive L.loadKey (fs skey))
      let c ← quiet (readArchive L.loadRes (fs input))
      let out ← printResultOut (decryptBit c (L.client k).sk)
      pure (fs, out))
  | runOffline {spec input out boot bkey sanitize pre cs} : Fetch .reversed (fs input) (.ok (pre, cs)) →
      ExecLog L stdin fs verbose (.runOffline spec input out boot bkey sanitize) (do
        let b ← quiet (readArchive L.loadBKey (fs bkey))
        let c ← logRunOffline verbose (L.server b) (fs spec) (pre.headD 0) cs boot sanitize
        pure (fs.set out (L.saveRes c), []))
  | runReverse {spec input out outDir freq boot isRev bkey sanitize pre cs} : Fetch .forward (fs input) (.ok (pre, cs)) →
      ExecLog L stdin fs verbose (.runReverse spec input out outDir freq boot isRev bkey sanitize) (do
        let b ← quiet (readArchive L.loadBKey (fs bkey))
        let rs ← logRunReverse verbose (L.server b) (fs spec) (pre.headD 0) (pre.getLastD 0) cs out outDir freq boot isRev sanitize
        pure (writeResults L fs rs, []))
  | runBlock {spec input out queue bkey sanitize pre cs} : Fetch .forward (fs input) (.ok (pre, cs)) →
      ExecLog L stdin fs verbose (.runBlock spec input out queue bkey sanitize) (do
        let s ← quiet (readSpec (fs spec))
        let g ← specOut s
        let b ← quiet (readArchive L.loadBKey (fs bkey))
        let c ← logRunBlock verbose (L.server b) g (pre.headD 0) cs queue sanitize
        pure (fs.set out (L.saveRes c), []))
  | runFlut {spec input out outDir freq queue boot bkey maxSecond debugSkey sanitize pre cs} : Fetch .forward (fs input) (.ok (pre, cs)) →
      ExecLog L stdin fs verbose (.runFlut spec input out outDir freq queue boot bkey maxSecond debugSkey sanitize) (do
        let s ← quiet (readSpec (fs spec))
        let g ← specOut s
        let b ← quiet (readArchive L.loadBKey (fs bkey))
        let _ ← quiet (readDebugKey L fs debugSkey)
        let rs ← logRunFlut verbose (L.server b) g (pre.headD 0) (pre.getLastD 0) cs out outDir freq queue boot maxSecond sanitize
        pure (writeResults L fs rs, []))
  | runPlain {spec input ap} : ExecLog L stdin fs verbose (.runPlain spec input ap) (do
      let s ← quiet (readSpec (fs spec))
      let gr ← specOut s
      let q ← quiet (eachInputBit (fs input) ap (fun s b => gr.nextState s b) gr.initialState)
      let res ← quiet (gr.isFinalState q)
      let out ← printResultOut res
      pure (fs, out))
  | ltl2spec (notes : List (List Char)) {formula numVars allFinal} : ExecLog L stdin fs verbose (.ltl2spec formula numVars allFinal) (do
      let m ← quiet (L.monitor formula numVars)
      (⟨notes.flatMap (debugRow verbose), .ok ()⟩ : Out Unit)
      let out ← quiet (doLtl2spec m numVars allFinal)
      pure (fs, out))
  | spec2spec {spec m r k} : ExecLog L stdin fs verbose (.spec2spec spec m r k) (do
      let s ← quiet (fileOrStdin readSpec fs stdin spec)
      let _ ← specOut s
      let out ← quiet (doSpec2spec s m r k)
      pure (fs, out))
  | spec2dot {spec} : ExecLog L stdin fs verbose (.spec2dot spec) (do
      let s ← quiet (fileOrStdin readSpec fs stdin spec)
      let _ ← specOut s
      let out ← quiet (doSpec2dot s)
      pure (fs, out))
  | spec2att {spec} : ExecLog L stdin fs verbose (.spec2att spec) (do
      let s ← quiet (fileOrStdin readSpec fs stdin spec)
      let _ ← specOut s
      let out ← quiet (doSpec2att s)
      pure (fs, out))
  | att2spec {spec} : ExecLog L stdin fs verbose (.att2spec spec) (do
      let s ← quiet (fileOrStdin readAtt fs stdin spec)
      let out ← quiet (doAtt2spec s)
      pure (fs, out))

/-! ## `main` -/

/-- What `dumpBasicInfo` says besides the command line: the first word, the build, two environment variables and the number of threads (src/main.cpp:537-586). -/
structure HomfaEnv where
  argv0 : String
  debugBuild : Bool
  revision : Option String
  profiling : Bool
  cpuProfile : Option String
  heapProfile : Option String
  concurrency : Nat

/-- `ss << envvar << " "` for a variable that is set (src/main.cpp:576-579) -/
def showVar (name : String) (v : Option String) : List Char := match v with
  | some s => name.toList ++ "=".toList ++ s.toList ++ " ".toList
  | none => []

/-- `dumpBasicInfo` (src/main.cpp:537-586): the messages -/
def basicInfo (E : HomfaEnv) (toks : List String) : List Row :=
  ["===================================".toList,
   "  _   _                 _____ _    ".toList,
   " | | | | ___  _ __ ___ |  ___/ \\   ".toList,
   " | |_| |/ _ \\| '_ ` _ \\| |_ / _ \\  ".toList,
   " |  _  | (_) | | | | | |  _/ ___ \\ ".toList,
   " |_| |_|\\___/|_| |_| |_|_|/_/   \\_\\".toList,
   "                                   ".toList,
   "Built with:".toList,
   if E.debugBuild then "\tType: debug".toList else "\tType: release".toList,
   match E.revision with
   | some r => "\tGit revision: ".toList ++ r.toList
   | none => "\tGit revision: unknown".toList,
   if E.profiling then "\tProfiling: enabled".toList else "\tProfiling: disabled".toList,
   "Executed with:".toList,
   "\tArgs: ".toList ++ (E.argv0 :: toks).flatMap (fun t => t.toList ++ " ".toList),
   "\tEnv var: ".toList ++ showVar "CPUPROFILE" E.cpuProfile ++ showVar "HEAPPROFILE" E.heapProfile,
   "\tConcurrency:\t".toList ++ showNat E.concurrency,
   "===================================".toList].map fun s => ⟨"info", .message s⟩

/-- `VERBOSITY` (src/main.cpp:24) -/
inductive LogLevel where
  | quiet
  | normal
  | verbose
  deriving DecidableEq

/-- The flags before the subcommand (src/main.cpp:67-73).  Their callbacks run in the order in which the flags have been registered, so `--quiet` wins. -/
def logLevel (toks : List String) : LogLevel :=
  let general := toks.takeWhile fun t => t == "--verbose" || t == "--quiet"
  if general.contains "--quiet" then .quiet else if general.contains "--verbose" then .verbose else .normal

/-- the messages that are shown at the level set in src/main.cpp:651-659; debug messages that are not shown have not been made -/
def shown (v : LogLevel) (rows : List Row) : List Row :=
  if v = .quiet then rows.filter fun r => r.key == "error" else rows

/-- One run of `homfa` that ends normally (src/main.cpp:590-755): its log, the files and the standard output. -/
inductive RunLog (L : Lib N n l) (E : HomfaEnv) (stdin : List Char) (fs : Files) (toks : List String) : List Row → Files × List Char → Prop
  | call {c rows p} : homfaMain (fun f => (fs f).isSome) toks = .ok (some c) → ExecLog L stdin fs (logLevel toks == .verbose) c ⟨rows, .ok p⟩ →
      RunLog L E stdin fs toks (shown (logLevel toks) (basicInfo E toks ++ rows)) p

/-- the text of a log (the pattern set in src/error.hpp:20); a clock decides about the times -/
inductive LogText : List Row → List Char → Prop
  | nil : LogText [] []
  | cons {level s rows text} (stamp : List Char) : '\n' ∉ stamp → LogText rows text →
      LogText (⟨level, .message s⟩ :: rows) ("[".toList ++ stamp ++ "] [homfa] [".toList ++ level.toList ++ "]\t".toList ++ s ++ "\n".toList ++ text)

end Homfa.Cli
