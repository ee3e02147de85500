import Verif.Model.Input
import Verif.Model.Stream
import Verif.Model.Text
import Verif.Model.Runners
import Verif.Model.Block
import Verif.Model.Flut

/-!
# The commands `enc`, `run ...` and `dec` (src/main.cpp:239-536)

A spec file is its text, a plaintext input file its bytes (`none` if it cannot be opened), a ciphertext file its bytes.

Simplifications: archives (key files, the result file) are the archived values, i.e. the cereal library is assumed to read back what it wrote;
the evaluation key read from the key file is part of the `Scheme`; log messages are dropped.
-/

namespace Homfa

variable {N n l : Nat}

/-- `print_result` (src/main.cpp:219-223): what is written to standard output. -/
def printResult (res : Bool) : List Char := if res then ['1'] else ['0']

/-- The function `do_enc` has called for each bit (src/main.cpp:248-250): how many bits were encrypted and the bytes written so far.
`rand i` is the randomness of the `i`-th encryption. -/
def encOne (S : Scheme N n l) (rand : Nat → Nat) (s : Nat × List Byte) (b : Bool) : Res (Nat × List Byte) :=
  .ok (s.1 + 1, s.2 ++ saveGsw (S.encrypt (rand s.1) b))

/-- `do_enc` (src/main.cpp:239-251): the bytes of the output file. -/
def doEnc (S : Scheme N n l) (rand : Nat → Nat) (input : Option (List Byte)) (numAp : Nat) : Res (List Byte) := do
  let s ← eachInputBit input numAp (encOne S rand) (0, [])
  pure s.2

/-- `do_dec` (src/main.cpp:466-472). -/
def doDec (S : Scheme N n l) (encRes : TLWE N) : List Char := printResult (decryptBit encRes S.sk)

/-- `do_run_dfa_plain` (src/main.cpp:524-535). -/
def doRunPlain (spec : List Char) (input : Option (List Byte)) (numAp : Nat) : Res (List Char) := do
  let gr ← Graph.fromIstream spec
  let s ← eachInputBit input numAp (fun s b => gr.nextState s b) gr.initialState
  let res ← gr.isFinalState s
  pure (printResult res)

/-! ## Reading the ciphertext file

The commands drive an input stream object, whose loader thread runs concurrently (Model/Stream.lean).  The command functions below take
the answers of the stream; `ReadsForward` and `ReadsReversed` say which answers the stream can give under some schedule. -/

/-- The answers to the calls of the loop `for (size_t i = 0; input_stream.size() != 0; i++) ... input_stream.next()`
(src/main.cpp:348-350, 416-418, 457-459) when it fetches the ciphertexts `cs` and then stops. -/
inductive LoopTrace : List (StreamOut l N) → List (Gsw l N) → Prop
  | stop : LoopTrace [.size 0] []
  | next {k c outs cs} : k ≠ 0 → LoopTrace outs cs → LoopTrace (.size k :: .ctxt c :: outs) (c :: cs)

/-- `outs` are the answers in some execution of a stream on the file in which the caller is never aborted. (src/tfhepp_util.cpp:99-180) -/
def StreamAnswers (kind : StreamKind) (file : List Byte) (outs : List (StreamOut l N)) : Prop :=
  ∃ junk script s₀ k t, openStream kind (some file) junk script = .ok s₀ ∧ StreamExec kind k s₀ t ∧ t.died = none ∧ t.out = outs

/-- `do_run_reverse`, `do_run_flut` and `do_run_block` can get the answers `pre` to the calls of `size()` before the loop (src/main.cpp:329
and 347, 393 and 415, 452) and the ciphertexts `cs` in the loop. -/
def ReadsForward (file : List Byte) (pre : List Nat) (cs : List (Gsw l N)) : Prop :=
  ∃ outs, StreamAnswers .forward file (pre.map .size ++ outs) ∧ LoopTrace outs cs

/-- `do_run_offline` can get the answers `pre` to its calls of `size()` (src/main.cpp:263, 268, 273, 280), the last of which is the number of
ciphertexts `cs` fetched by the loop in src/main.cpp:281-282. -/
def ReadsReversed (file : List Byte) (pre : List Nat) (cs : List (Gsw l N)) : Prop :=
  StreamAnswers .reversed file (pre.map .size ++ cs.map .ctxt) ∧ pre.getLast? = some cs.length

/-! ## The commands -/

/-- The number logged as "Total #CMUX" (src/main.cpp:272-275). -/
def Backstream.totalCmux (r : Backstream N) (size : Nat) : Res Nat :=
  (List.range size).foldlM (fun (cnt : Nat) j => do
    let sts ← r.graph.statesAtDepthAt j
    (pure (cnt + sts.length) : Res Nat)) 0

/-- `do_run_offline` (src/main.cpp:253-285): the content of the output file.  `size` is the answer of the first `size()`. -/
def doRunOffline (S : Scheme N n l) (spec : List Char) (size : Nat) (cs : List (Gsw l N)) (bootFreq : Nat) (sanitize : Bool) :
    Res (TLWE N) := do
  let g ← Graph.fromIstream spec
  let g ← g.minimized
  let runner ← offlineMake g size bootFreq true sanitize
  let _total ← runner.totalCmux size
  let runner ← cs.foldlM (fun r c => r.eval S c) runner
  runner.result

/-- A file written by a command: the one named by `--out`, or `<k>.out` in the output directory (src/main.cpp:353-354, 362-363). -/
inductive OutFile where
  | file (name : String)
  | inDir (dir : String) (k : Nat)
  deriving DecidableEq

/-- The loop of the online commands (src/main.cpp:348-357, 416-425) from index `i`, with the files written. `outDir` is the output directory
and frequency; a frequency of 0 is a division by zero. -/
def onlineLoop {ρ : Type} (evalOne : ρ → Gsw l N → Res ρ) (result : ρ → Res (TLWE N × ρ)) (outDir : Option String) (outFreq : Nat) :
    List (Gsw l N) → Nat → ρ → Res (List (OutFile × TLWE N) × ρ)
  | [], _, r => .ok ([], r)
  | c :: cs, i, r => do
    let r ← evalOne r c
    match outDir with
    | none => onlineLoop evalOne result outDir outFreq cs (i + 1) r
    | some dir =>
      if outFreq = 0 then .error .ub
      else if i % outFreq = outFreq - 1 then do
        let p ← result r
        let q ← onlineLoop evalOne result outDir outFreq cs (i + 1) p.2
        pure ((.inDir dir (i + 1), p.1) :: q.1, q.2)
      else onlineLoop evalOne result outDir outFreq cs (i + 1) r

/-- The last output (src/main.cpp:359-365, 427-433). `hidden` is the size asked before the loop.  `*output_dirname` of an empty optional is
undefined. -/
def lastOut (outFile outDir : Option String) (hidden : Nat) : Res OutFile :=
  match outFile, outDir with
  | some f, _ => .ok (.file f)
  | none, some d => .ok (.inDir d hidden)
  | none, none => .error .ub

/-- `do_run_reverse` (src/main.cpp:314-366): the files written, in order. -/
def doRunReverse (S : Scheme N n l) (spec : List Char) (hidden : Nat) (cs : List (Gsw l N)) (outFile outDir : Option String)
    (outFreq bootFreq : Nat) (isSpecReversed sanitize : Bool) : Res (List (OutFile × TLWE N)) := do
  cassert ((outFile.isSome && !outDir.isSome) || (!outFile.isSome && outDir.isSome))
  let g ← Graph.fromIstream spec
  let runner ← reverseMake g bootFreq isSpecReversed true sanitize
  let p ← onlineLoop (fun r c => r.eval S c) (fun r => do let c ← r.result; pure (c, r)) outDir outFreq cs 0 runner
  let f ← lastOut outFile outDir hidden
  let c ← p.2.result
  pure (p.1 ++ [(f, c)])

/-- `do_run_flut` (src/main.cpp:368-434): the files written, in order. -/
def doRunFlut (S : Scheme N n l) (spec : List Char) (hidden : Nat) (cs : List (Gsw l N)) (outFile outDir : Option String)
    (outFreq queueSize bootFreq : Nat) (maxSecond : Option Nat) (sanitize : Bool) : Res (List (OutFile × TLWE N)) := do
  let g ← Graph.fromIstream spec
  let runner ← Flut.make g (maxSecond.getD 8) queueSize bootFreq sanitize
  if outDir.isSome ∧ queueSize = 0 then throw .ub
  let p ← onlineLoop (fun r c => Flut.evalOne S r c) (fun r => Flut.result S r) outDir outFreq cs 0 runner
  let f ← lastOut outFile outDir hidden
  let c ← p.2.result S
  pure (p.1 ++ [(f, c.1)])

/-- `do_run_block` (src/main.cpp:436-464): the content of the output file. -/
def doRunBlock (S : Scheme N n l) (spec : List Char) (cs : List (Gsw l N)) (queueSize : Nat) (sanitize : Bool) : Res (TLWE N) := do
  let g ← Graph.fromIstream spec
  let runner ← Block.make g queueSize sanitize
  let runner ← cs.foldlM (fun r c => r.evalOne S c) runner
  let c ← runner.result S
  pure c.1

end Homfa
