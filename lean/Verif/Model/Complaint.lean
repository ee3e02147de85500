import Verif.Model.Diagnose
import Verif.Model.Shell
/-!
# The errors that homfa logs (src/main.cpp:225-536, 590-755)

The commands once more, with the messages at level error: those that are shown also with `--quiet` (src/main.cpp:651-659).  All of them come from `error_die`
(src/error.hpp:61-77).  Information, warnings and debug messages are in `Verif.Model.HomfaLog`.  What CLI11 and the C++ runtime print is not in the log.

Simplification: how much of the input a run command has read when it gives up is left open (the constructors `..Early` of `ExecSaid`), as is the input itself.
-/

namespace Homfa

variable {N n l : Nat}

/-- Logged by `spdlog::error`, so that `--quiet` leaves it (src/main.cpp:652-653, src/error.hpp:63-73). -/
def isError : Spec.Note → Bool
  | .info _ => false
  | _ => true

/-- Only the messages at level error (src/main.cpp:652-653). -/
def Said.errors {α : Type} (x : Said α) : Said α := ⟨x.notes.filter isError, x.res⟩

/-- The constructor of `BackstreamDFARunner` (src/backstream_dfa_runner.cpp:8-33). -/
def Backstream.makeSaid (graph : Graph) (bootInterval : Nat) (inputSize : Option Nat) (hasKey sanitize : Bool) : Said (Backstream N) := do
  silent (cassert hasKey)
  if sanitize then dieSaying "Sanitization of results is not implemented".toList
  else silent (Backstream.make graph bootInterval inputSize hasKey false)

/-- `OnlineDFARunner2` (src/online_dfa.cpp:100-117). -/
def reverseMakeSaid (graph : Graph) (bootInterval : Nat) (isSpecReversed hasKey sanitize : Bool) : Said (Backstream N) := do
  let g ← silent (if isSpecReversed then pure graph else do
    let r ← graph.reversed
    r.minimized : Res Graph)
  Backstream.makeSaid g bootInterval none hasKey sanitize

/-- The constructor of `OnlineDFARunner3` (src/online_dfa.cpp:120-165). -/
def Flut.makeSaid (graph : Graph) (maxSecond queueSize bootFreq : Nat) (sanitize : Bool) : Said (Flut N l) :=
  if sanitize then dieSaying "Sanitization of results is not implemented".toList
  else silent (Flut.make graph maxSecond queueSize bootFreq false)

/-- The constructor of `OnlineDFARunner4` (src/online_dfa.cpp:376-391). -/
def Block.makeSaid (graph : Graph) (queueSize : Nat) (sanitize : Bool) : Said (Block N l) :=
  if sanitize then dieSaying "Sanitization of results is not implemented".toList
  else silent (Block.make graph queueSize false)

/-- `OnlineDFARunner3::eval_queued_inputs` (src/online_dfa.cpp:244-373); after the test nothing more is said.  As for `shl1Cap`, no number of states reaches the value
of `1 << 31`, so it does not matter here that this one would be shown with a sign. -/
def Flut.evalQueuedSaid (S : Scheme N n l) (r : Flut N l) : Said (Flut N l) :=
  if r.queued.length = 0 then pure r
  else do
    let memo ← silent (vat r.memo r.queued.length)
    let next ← silent (flutNext r.graph memo r.live r.queued.length)
    let _ ← silent (flutIdx r.graph next)
    let cap ← silent (shl1Cap r.maxSecond)
    if next.length ≥ cap then
      dieSaying ("The number of next live states (".toList ++ showNat next.length ++ ") must be smaller than 2^max_second_lut_depth (".toList ++
        showNat cap ++ ")".toList)
    else silent (r.evalQueued S)

/-- `OnlineDFARunner3::eval_one` (src/online_dfa.cpp:182-188). -/
def Flut.evalOneSaid (S : Scheme N n l) (r : Flut N l) (input : Gsw l N) : Said (Flut N l) :=
  let r := { r with queued := r.queued ++ [input] }
  if r.queued.length < r.queueSize then pure r else r.evalQueuedSaid S

/-- `OnlineDFARunner3::result` (src/online_dfa.cpp:167-180). -/
def Flut.resultSaid (S : Scheme N n l) (r : Flut N l) : Said (TLWE N × Flut N l) := do
  let r ← r.evalQueuedSaid S
  silent (do
    let acc ← r.live.foldlM (fun (acc : TRLWE N) st => do
        let f ← r.graph.isFinalState st
        if f then do
          let w ← vat r.weight st
          pure (acc.add w)
        else pure acc) (trivialTRLWEZero N)
    let c ← sampleExtractAt acc 0
    pure (c, r))

/-- The loop of the online commands (src/main.cpp:348-357, 416-425). -/
def onlineLoopSaid {ρ : Type} (evalOne : ρ → Gsw l N → Said ρ) (result : ρ → Said (TLWE N × ρ)) (outDir : Option String) (outFreq : Nat) :
    List (Gsw l N) → Nat → ρ → Said (List (OutFile × TLWE N) × ρ)
  | [], _, r => pure ([], r)
  | c :: cs, i, r => do
    let r ← evalOne r c
    match outDir with
    | none => onlineLoopSaid evalOne result outDir outFreq cs (i + 1) r
    | some dir =>
      if outFreq = 0 then silent (.error .ub)
      else if i % outFreq = outFreq - 1 then do
        let p ← result r
        let q ← onlineLoopSaid evalOne result outDir outFreq cs (i + 1) p.2
        pure ((.inDir dir (i + 1), p.1) :: q.1, q.2)
      else onlineLoopSaid evalOne result outDir outFreq cs (i + 1) r

namespace Cli

/-- `read_from_archive` (src/archive.hpp:20-31). -/
def readArchiveSaid {α : Type} (load : List Byte → Option α) (fs : Files) (path : String) : Said α :=
  match fs path with
  | none => silent (.error .assertFail)
  | some b => match load b with
    | some x => pure x
    | none => dieSaying ("Invalid archive: ".toList ++ path.toList)

/-- The debug key of `run flut` (src/main.cpp:383-385). -/
def readDebugKeySaid (L : Lib N n l) (fs : Files) (name : Option String) : Said Unit :=
  match name with
  | some f => do
    let _ ← readArchiveSaid L.loadKey fs f
    pure ()
  | none => pure ()

/-- `Graph::from_file` (src/graph.cpp:196-201). -/
def fromFileSaid (file : Option (List Byte)) : Said Graph := do
  let s ← silent (readSpec file)
  (fromIstreamSaid s).errors

/-- A spec from a file or from standard input (src/main.cpp:485-487, 499-503, 517-521). -/
def specArgSaid (fs : Files) (stdin : List Char) (name : Option String) : Said Graph :=
  if name.getD "-" = "-" then (fromIstreamSaid stdin).errors else fromFileSaid (fs (name.getD "-"))

/-- An AT&T file, or standard input (src/main.cpp:508-512). -/
def attArgSaid (fs : Files) (stdin : List Char) (name : Option String) : Said Graph :=
  if name.getD "-" = "-" then fromAttIstreamSaid stdin else fromAttFileSaid (name.getD "-").toList ((fs (name.getD "-")).map textOf)

/-- `do_run_offline` (src/main.cpp:253-285) after the opening of the input. -/
def runOfflineSaid (L : Lib N n l) (fs : Files) (spec out : String) (boot : Nat) (bkey : String) (sanitize : Bool) (pre : List Nat) (cs : List (Gsw l N)) :
    Said (Files × List Char) := do
  let b ← readArchiveSaid L.loadBKey fs bkey
  let g ← fromFileSaid (fs spec)
  let g ← silent g.minimized
  let runner ← Backstream.makeSaid g boot (some (pre.headD 0)) true sanitize
  silent (do
    let _total ← runner.totalCmux (pre.headD 0)
    let runner ← cs.foldlM (fun r c => r.eval (L.server b) c) runner
    let c ← runner.result
    pure (fs.set out (L.saveRes c), []))

/-- `do_run_reverse` (src/main.cpp:314-366) after the opening of the input. -/
def runReverseSaid (L : Lib N n l) (fs : Files) (spec : String) (out outDir : Option String) (freq boot : Nat) (isRev : Bool) (bkey : String) (sanitize : Bool)
    (pre : List Nat) (cs : List (Gsw l N)) : Said (Files × List Char) := do
  silent (cassert ((out.isSome && !outDir.isSome) || (!out.isSome && outDir.isSome)))
  let b ← readArchiveSaid L.loadBKey fs bkey
  let g ← fromFileSaid (fs spec)
  let runner ← reverseMakeSaid g boot isRev true sanitize
  silent (do
    let p ← onlineLoop (fun r c => r.eval (L.server b) c) (fun r => do let c ← r.result; pure (c, r)) outDir freq cs 0 runner
    let f ← lastOut out outDir (pre.getLastD 0)
    let c ← p.2.result
    pure (writeResults L fs (p.1 ++ [(f, c)]), []))

/-- `do_run_block` (src/main.cpp:436-464) after the opening of the input. -/
def runBlockSaid (L : Lib N n l) (fs : Files) (spec out : String) (queue : Nat) (bkey : String) (sanitize : Bool) (cs : List (Gsw l N)) : Said (Files × List Char) := do
  let g ← fromFileSaid (fs spec)
  let b ← readArchiveSaid L.loadBKey fs bkey
  let runner ← Block.makeSaid g queue sanitize
  silent (do
    let runner ← cs.foldlM (fun r c => r.evalOne (L.server b) c) runner
    let c ← runner.result (L.server b)
    pure (fs.set out (L.saveRes c.1), []))

/-- `do_run_flut` (src/main.cpp:368-434) after the opening of the input. -/
def runFlutSaid (L : Lib N n l) (fs : Files) (spec : String) (out outDir : Option String) (freq queue boot : Nat) (bkey : String) (maxSecond : Option Nat)
    (debugSkey : Option String) (sanitize : Bool) (pre : List Nat) (cs : List (Gsw l N)) : Said (Files × List Char) := do
  let g ← fromFileSaid (fs spec)
  let b ← readArchiveSaid L.loadBKey fs bkey
  readDebugKeySaid L fs debugSkey
  let runner ← Flut.makeSaid g (maxSecond.getD 8) queue boot sanitize
  silent (if outDir.isSome ∧ queue = 0 then .error .ub else .ok ())
  let p ← onlineLoopSaid (fun r c => Flut.evalOneSaid (L.server b) r c) (fun r => Flut.resultSaid (L.server b) r) outDir freq cs 0 runner
  let f ← silent (lastOut out outDir (pre.getLastD 0))
  let c ← p.2.resultSaid (L.server b)
  pure (writeResults L fs (p.1 ++ [(f, c.1)]), [])

/-- The functions called by `main` (src/main.cpp:225-536).  A run command may fail on its input, or give up before it has read all of it. -/
inductive ExecSaid (L : Lib N n l) (stdin : List Char) (fs : Files) : Call → Said (Files × List Char) → Prop
  | genkey (r : Nat) {out} : ExecSaid L stdin fs (.genkey out) (pure (fs.set out (L.saveKey (L.newKey r)), []))
  | genbkey (r : Nat) {skey out} : ExecSaid L stdin fs (.genbkey skey out) (do
      let k ← readArchiveSaid L.loadKey fs skey
      pure (fs.set out (L.saveBKey (L.newBKey r k)), []))
  | enc (rand : Nat → Nat) {skey input out ap} : ExecSaid L stdin fs (.enc skey input out ap) (do
      let k ← readArchiveSaid L.loadKey fs skey
      silent (do
        let fs := fs.set out []
        let b ← doEnc (L.client k) rand (fs input) ap
        pure (fs.set out b, [])))
  | dec {skey input} : ExecSaid L stdin fs (.dec skey input) (do
      let k ← readArchiveSaid L.loadKey fs skey
      let c ← readArchiveSaid L.loadRes fs input
      pure (fs, doDec (L.client k) c))
  | runOffline {spec input out boot bkey sanitize r} : Fetch .reversed (fs input) r → ExecSaid L stdin fs (.runOffline spec input out boot bkey sanitize) (do
      let p ← silent r
      runOfflineSaid L fs spec out boot bkey sanitize p.1 p.2)
  | runOfflineEarly {spec input out boot bkey sanitize} (pre cs) : (runOfflineSaid L fs spec out boot bkey sanitize pre cs).res = .error .die →
      ExecSaid L stdin fs (.runOffline spec input out boot bkey sanitize) (runOfflineSaid L fs spec out boot bkey sanitize pre cs)
  | runReverse {spec input out outDir freq boot isRev bkey sanitize r} : Fetch .forward (fs input) r →
      ExecSaid L stdin fs (.runReverse spec input out outDir freq boot isRev bkey sanitize) (do
        let p ← silent r
        runReverseSaid L fs spec out outDir freq boot isRev bkey sanitize p.1 p.2)
  | runReverseEarly {spec input out outDir freq boot isRev bkey sanitize} (pre cs) :
      (runReverseSaid L fs spec out outDir freq boot isRev bkey sanitize pre cs).res = .error .die →
      ExecSaid L stdin fs (.runReverse spec input out outDir freq boot isRev bkey sanitize) (runReverseSaid L fs spec out outDir freq boot isRev bkey sanitize pre cs)
  | runBlock {spec input out queue bkey sanitize r} : Fetch .forward (fs input) r → ExecSaid L stdin fs (.runBlock spec input out queue bkey sanitize) (do
      let p ← silent r
      runBlockSaid L fs spec out queue bkey sanitize p.2)
  | runBlockEarly {spec input out queue bkey sanitize} (cs) : (runBlockSaid L fs spec out queue bkey sanitize cs).res = .error .die →
      ExecSaid L stdin fs (.runBlock spec input out queue bkey sanitize) (runBlockSaid L fs spec out queue bkey sanitize cs)
  | runFlut {spec input out outDir freq queue boot bkey maxSecond debugSkey sanitize r} : Fetch .forward (fs input) r →
      ExecSaid L stdin fs (.runFlut spec input out outDir freq queue boot bkey maxSecond debugSkey sanitize) (do
        let p ← silent r
        runFlutSaid L fs spec out outDir freq queue boot bkey maxSecond debugSkey sanitize p.1 p.2)
  | runFlutEarly {spec input out outDir freq queue boot bkey maxSecond debugSkey sanitize} (pre cs) :
      (runFlutSaid L fs spec out outDir freq queue boot bkey maxSecond debugSkey sanitize pre cs).res = .error .die →
      ExecSaid L stdin fs (.runFlut spec input out outDir freq queue boot bkey maxSecond debugSkey sanitize)
        (runFlutSaid L fs spec out outDir freq queue boot bkey maxSecond debugSkey sanitize pre cs)
  | runPlain {spec input ap} : ExecSaid L stdin fs (.runPlain spec input ap) (do
      let gr ← fromFileSaid (fs spec)
      silent (do
        let s ← eachInputBit (fs input) ap (fun s b => gr.nextState s b) gr.initialState
        let res ← gr.isFinalState s
        pure (fs, printResult res)))
  | ltl2spec {formula numVars allFinal} : ExecSaid L stdin fs (.ltl2spec formula numVars allFinal) (silent (do
      let m ← L.monitor formula numVars
      let out ← doLtl2spec m numVars allFinal
      pure (fs, out)))
  | spec2spec {spec m r k} : ExecSaid L stdin fs (.spec2spec spec m r k) (do
      let g ← specArgSaid fs stdin spec
      silent (do
        let g ← (if k then g.negated else pure g : Res Graph)
        let g ← (if r then g.reversed else pure g : Res Graph)
        let g ← (if m then g.minimized else pure g : Res Graph)
        let out ← g.dump
        pure (fs, out)))
  | spec2dot {spec} : ExecSaid L stdin fs (.spec2dot spec) (do
      let g ← specArgSaid fs stdin spec
      silent (do
        let out ← g.dumpDot
        pure (fs, out)))
  | spec2att {spec} : ExecSaid L stdin fs (.spec2att spec) (do
      let g ← specArgSaid fs stdin spec
      silent (do
        let out ← g.dumpAtt
        pure (fs, out)))
  | att2spec {spec} : ExecSaid L stdin fs (.att2spec spec) (do
      let g ← attArgSaid fs stdin spec
      silent (do
        let out ← g.dump
        pure (fs, out)))

/-- What the `switch` says when it gives up (src/main.cpp:690, 700, 709, 748, 751). -/
def dispatchMessage (a : Args) : List Char :=
  match a.type with
  | .runReverse | .runBlock | .runFlut => "Use --out or --out-dir".toList
  | .unspecified => "Please specify subcommand".toList
  | _ => "Not implemented for now".toList

/-- The `switch` (src/main.cpp:663-752). -/
def dispatchSaid (a : Args) : Said Call :=
  match dispatch a with
  | .error .die => dieSaying (dispatchMessage a)
  | r => silent r

/-- The `switch` after the line has been read. (src/main.cpp:649-752) -/
def callSaid (a : Args) : Said (Option Call) := do
  let c ← dispatchSaid a
  pure (some c)

/-- `main` (src/main.cpp:590-755) up to the call; `none` when CLI11 rejects the line. -/
def homfaMainSaid (ex : String → Bool) (toks : List String) : Said (Option Call) :=
  match skipGeneral toks with
  | [] => callSaid Args.empty
  | t :: rest =>
    if t = "run" then match rest with
      | [] => callSaid Args.empty
      | s :: rest => match runSubs.find? (fun d => d.names.contains s) with
        | some d => match parseSub ex d rest with
          | some a => callSaid a
          | none => pure none
        | none => pure none
    else match subs.find? (fun d => d.names.contains t) with
      | some d => match parseSub ex d rest with
        | some a => callSaid a
        | none => pure none
      | none => pure none

/-- One run of `homfa` (src/main.cpp:590-755).  CLI11 does not use the log. -/
inductive RunSaid (L : Lib N n l) (stdin : List Char) (fs : Files) (toks : List String) : Said (Files × List Char) → Prop
  | call {c x} : homfaMainSaid (fun f => (fs f).isSome) toks = pure (some c) → ExecSaid L stdin fs c x → RunSaid L stdin fs toks x
  | usage : homfaMainSaid (fun f => (fs f).isSome) toks = pure none → RunSaid L stdin fs toks (silent (.error .die))
  | fails {notes e} : homfaMainSaid (fun f => (fs f).isSome) toks = ⟨notes, .error e⟩ → RunSaid L stdin fs toks ⟨notes, .error e⟩

end Cli
end Homfa
