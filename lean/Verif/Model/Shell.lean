import Verif.Model.Cli
import Verif.Model.Commands
import Verif.Model.SpecTools

/-!
# Whole programs: command lines acting on files (src/main.cpp, src/archive.hpp)

A file system maps names to bytes.  One run of `homfa` parses its words (`homfaMain`), calls a function, and ends normally with new files and
text on standard output, or abnormally.

Simplifications: output files can always be opened and written; of the files only the named ones matter; what an abnormal end leaves behind is
not described; a run command whose input stream can be read but whose specification or key cannot reads the stream first.  cereal's formats
and the key generation of TFHEpp are parameters (`Lib`).
-/

namespace Homfa.Cli

variable {N n l : Nat}

/-- the files (src/archive.hpp:20-68, src/main.cpp:244) -/
abbrev Files := String → Option (List Byte)

/-- the content of a file is replaced, or the file is created (src/archive.hpp:20-68, src/main.cpp:244) -/
def Files.set (fs : Files) (f : String) (b : List Byte) : Files := fun g => if g = f then some b else fs g

/-- the characters of a text file (src/main.cpp:482-522) -/
def textOf (b : List Byte) : List Char := b.map fun x => Char.ofNat x.toNat

/-- The libraries: keys, their generation from randomness, the operations that need them, the archive formats, and Spot's translation of
formulas to monitors. (the calls of TFHEpp, cereal and Spot in src/tfhepp_util.cpp, src/archive.hpp:13-54 and src/graph.cpp:625-640) -/
structure Lib (N n l : Nat) where
  /-- `SecretKey` and `BKey` -/
  Key : Type
  BKey : Type
  newKey : Nat → Key
  newBKey : Nat → Key → BKey
  /-- the operations with the secret key -/
  secret : Key → SecretKey N n
  encrypt : Key → Nat → Bool → Gsw l N
  /-- the operations without it -/
  cmux : Gsw l N → TRLWE N → TRLWE N → TRLWE N
  iks : BKey → TLWE N → TLWE n
  blindRotate : BKey → TLWE n → Poly N → TRLWE N
  tlwe2trlwe : BKey → TLWE N → TRLWE N
  cb : BKey → TLWE N → Gsw l N
  /-- cereal's archives -/
  saveKey : Key → List Byte
  loadKey : List Byte → Option Key
  saveBKey : BKey → List Byte
  loadBKey : List Byte → Option BKey
  saveRes : TLWE N → List Byte
  loadRes : List Byte → Option (TLWE N)
  /-- Spot: a formula and the number of propositions (`ltl_to_monitor`, src/graph.cpp:625-637) -/
  monitor : String → Nat → Res Monitor

/-- what a run command has: no secret key (src/main.cpp:253-464) -/
def Lib.server (L : Lib N n l) (b : L.BKey) : Scheme N n l :=
  { sk := ⟨fun _ => 0#32, fun _ => 0#32⟩, cmux := L.cmux, iks := L.iks b, blindRotate := L.blindRotate b, tlwe2trlwe := L.tlwe2trlwe b,
    cb := L.cb b, encrypt := fun _ _ _ _ _ => 0#64 }

/-- what `enc` and `dec` have: no evaluation key (src/main.cpp:239-251, 466-472) -/
def Lib.client (L : Lib N n l) (k : L.Key) : Scheme N n l :=
  { sk := L.secret k, cmux := L.cmux, iks := fun _ => ⟨fun _ => 0#32, 0#32⟩, blindRotate := fun _ _ => trivialTRLWEZero N,
    tlwe2trlwe := fun _ => trivialTRLWEZero N, cb := fun _ _ _ _ => 0#64, encrypt := L.encrypt k }

/-- `read_from_archive` (src/archive.hpp:20-31) -/
def readArchive {α : Type} (load : List Byte → Option α) (file : Option (List Byte)) : Res α :=
  match file with
  | none => .error .assertFail
  | some b => match load b with
    | some x => .ok x
    | none => .error .die

/-- the debug key of `run flut` (src/main.cpp:383-385) -/
def readDebugKey (L : Lib N n l) (fs : Files) (name : Option String) : Res Unit :=
  match name with
  | some f => (readArchive L.loadKey (fs f)).map fun _ => ()
  | none => .ok ()

/-- the file opened by `Graph::from_file` (src/graph.cpp:196-201) -/
def readSpec (file : Option (List Byte)) : Res (List Char) :=
  match file with
  | none => .error .assertFail
  | some b => .ok (textOf b)

/-- the file opened by `Graph::from_att_file` (src/graph.cpp:238-244) -/
def readAtt (file : Option (List Byte)) : Res (List Char) :=
  match file with
  | none => .error .die
  | some b => .ok (textOf b)

/-- a file, or standard input (src/main.cpp:485-487, 499-503, 508-512, 517-521) -/
def fileOrStdin (read : Option (List Byte) → Res (List Char)) (fs : Files) (stdin : List Char) (name : Option String) : Res (List Char) :=
  if name.getD "-" = "-" then .ok stdin else read (fs (name.getD "-"))

/-! ## Reading the ciphertexts

The caller of a stream has made the calls `calls` and got the answers `outs`; it waits for the answer to its last call if there is one answer
less. -/

/-- the loop `for (size_t i = 0; input_stream.size() != 0; i++) ... input_stream.next()` (src/main.cpp:347-350) -/
inductive LoopIssued : List StreamCall → List (StreamOut l N) → Prop
  | start : LoopIssued [] []
  | askSize : LoopIssued [.size] []
  | stop : LoopIssued [.size] [.size 0]
  | askNext {k} : k ≠ 0 → LoopIssued [.size, .next] [.size k]
  | next {k c calls outs} : k ≠ 0 → LoopIssued calls outs → LoopIssued (.size :: .next :: calls) (.size k :: .ctxt c :: outs)

/-- some calls of `size()`, then that loop (src/main.cpp:314-464) -/
inductive ForwardIssued : List StreamCall → List (StreamOut l N) → Prop
  | loop {calls outs} : LoopIssued calls outs → ForwardIssued calls outs
  | askSize : ForwardIssued [.size] []
  | size {k calls outs} : ForwardIssued calls outs → ForwardIssued (.size :: calls) (.size k :: outs)

/-- some calls of `size()`, then as many calls of `next()` as the last answer says, at most (src/main.cpp:265-282) -/
inductive ReversedIssued : List StreamCall → List (StreamOut l N) → Prop
  | start : ReversedIssued [] []
  | askSize : ReversedIssued [.size] []
  | size {k calls outs} : ReversedIssued calls outs → ReversedIssued (.size :: calls) (.size k :: outs)
  | nexts {k j outs} : j ≤ k → ReversedIssued (.size :: List.replicate j .next) (.size k :: outs)

/-- (src/main.cpp:253-464) -/
def Issued (l N : Nat) : StreamKind → List StreamCall → List (StreamOut l N) → Prop
  | .forward => ForwardIssued
  | .reversed => ReversedIssued

/-- What a run command may get from its input stream: the answers to its calls of `size()` before the loop and the ciphertexts, or an
abnormal end in the constructor or later. (src/main.cpp:253-464) -/
inductive Fetch : StreamKind → Option (List Byte) → Res (List Nat × List (Gsw l N)) → Prop
  | bad {kind : StreamKind} {file : Option (List Byte)} {junk : Gsw l N} {script : List StreamCall} {e : Err} : openStream kind file junk script = .error e → Fetch kind file (.error e)
  | dies {kind : StreamKind} {file : Option (List Byte)} {junk : Gsw l N} {calls : List StreamCall} {outs : List (StreamOut l N)}
      {s₀ t : StreamState l N} {k : Nat} {e : Err} : openStream kind file junk calls = .ok s₀ → StreamExec kind k s₀ t → t.died = some e →
      t.out = outs → Issued l N kind calls outs → Fetch kind file (.error e)
  | forward {file : List Byte} {pre : List Nat} {cs : List (Gsw l N)} : pre ≠ [] → ReadsForward file pre cs → Fetch .forward (some file) (.ok (pre, cs))
  | reversed {file : List Byte} {pre : List Nat} {cs : List (Gsw l N)} : ReadsReversed file pre cs → Fetch .reversed (some file) (.ok (pre, cs))

/-! ## One run of the program -/

/-- the path of an output file (`concat_paths`, src/main.cpp:213-217, and src/main.cpp:353-354, 362-363) -/
def OutFile.path : OutFile → String
  | .file f => f
  | .inDir d k => d ++ "/" ++ String.ofList (Nat.toDigits 10 k) ++ ".out"

/-- `write_to_archive` for the results of a run (src/archive.hpp:56-68) -/
def writeResults (L : Lib N n l) (fs : Files) (rs : List (OutFile × TLWE N)) : Files :=
  rs.foldl (fun fs r => fs.set (OutFile.path r.1) (L.saveRes r.2)) fs

/-- The functions called by `main` (src/main.cpp:225-536): the files and the standard output after a normal end, or the abnormal end.  The
randomness and the schedule of the input stream are free.  Simplification: `run block` and `run flut` parse the spec before they read the keys (src/main.cpp:378-385, 442-445),
whereas here it is parsed inside `doRunBlock` and `doRunFlut`; so if a spec and a key are both bad, this definition may name the other abnormal end.
`Verif.Model.Complaint` has the order of the code, and `C122_same` shows that the normal ends are the same. -/
inductive Exec (L : Lib N n l) (stdin : List Char) (fs : Files) : Call → Res (Files × List Char) → Prop
  | genkey (r : Nat) {out} : Exec L stdin fs (.genkey out) (.ok (fs.set out (L.saveKey (L.newKey r)), []))
  | genbkey (r : Nat) {skey out} : Exec L stdin fs (.genbkey skey out) (do
      let k ← readArchive L.loadKey (fs skey)
      pure (fs.set out (L.saveBKey (L.newBKey r k)), []))
  | enc (rand : Nat → Nat) {skey input out ap} : Exec L stdin fs (.enc skey input out ap) (do
      let k ← readArchive L.loadKey (fs skey)
      let fs := fs.set out []
      let b ← doEnc (L.client k) rand (fs input) ap
      pure (fs.set out b, []))
  | dec {skey input} : Exec L stdin fs (.dec skey input) (do
      let k ← readArchive L.loadKey (fs skey)
      let c ← readArchive L.loadRes (fs input)
      pure (fs, doDec (L.client k) c))
  | runOffline {spec input out boot bkey sanitize r} : Fetch .reversed (fs input) r →
      Exec L stdin fs (.runOffline spec input out boot bkey sanitize) (do
        let (pre, cs) ← r
        let b ← readArchive L.loadBKey (fs bkey)
        let s ← readSpec (fs spec)
        let c ← doRunOffline (L.server b) s (pre.headD 0) cs boot sanitize
        pure (fs.set out (L.saveRes c), []))
  | runReverse {spec input out outDir freq boot isRev bkey sanitize r} : Fetch .forward (fs input) r →
      Exec L stdin fs (.runReverse spec input out outDir freq boot isRev bkey sanitize) (do
        let (pre, cs) ← r
        let b ← readArchive L.loadBKey (fs bkey)
        let s ← readSpec (fs spec)
        let rs ← doRunReverse (L.server b) s (pre.getLastD 0) cs out outDir freq boot isRev sanitize
        pure (writeResults L fs rs, []))
  | runBlock {spec input out queue bkey sanitize r} : Fetch .forward (fs input) r →
      Exec L stdin fs (.runBlock spec input out queue bkey sanitize) (do
        let (_, cs) ← r
        let s ← readSpec (fs spec)
        let b ← readArchive L.loadBKey (fs bkey)
        let c ← doRunBlock (L.server b) s cs queue sanitize
        pure (fs.set out (L.saveRes c), []))
  | runFlut {spec input out outDir freq queue boot bkey maxSecond debugSkey sanitize r} : Fetch .forward (fs input) r →
      Exec L stdin fs (.runFlut spec input out outDir freq queue boot bkey maxSecond debugSkey sanitize) (do
        let (pre, cs) ← r
        let s ← readSpec (fs spec)
        let b ← readArchive L.loadBKey (fs bkey)
        let _ ← readDebugKey L fs debugSkey
        let rs ← doRunFlut (L.server b) s (pre.getLastD 0) cs out outDir freq queue boot maxSecond sanitize
        pure (writeResults L fs rs, []))
  | runPlain {spec input ap} : Exec L stdin fs (.runPlain spec input ap) (do
      let s ← readSpec (fs spec)
      let out ← doRunPlain s (fs input) ap
      pure (fs, out))
  | ltl2spec {formula numVars allFinal} : Exec L stdin fs (.ltl2spec formula numVars allFinal) (do
      let m ← L.monitor formula numVars
      let out ← doLtl2spec m numVars allFinal
      pure (fs, out))
  | spec2spec {spec m r k} : Exec L stdin fs (.spec2spec spec m r k) (do
      let s ← fileOrStdin readSpec fs stdin spec
      let out ← doSpec2spec s m r k
      pure (fs, out))
  | spec2dot {spec} : Exec L stdin fs (.spec2dot spec) (do
      let s ← fileOrStdin readSpec fs stdin spec
      let out ← doSpec2dot s
      pure (fs, out))
  | spec2att {spec} : Exec L stdin fs (.spec2att spec) (do
      let s ← fileOrStdin readSpec fs stdin spec
      let out ← doSpec2att s
      pure (fs, out))
  | att2spec {spec} : Exec L stdin fs (.att2spec spec) (do
      let s ← fileOrStdin readAtt fs stdin spec
      let out ← doAtt2spec s
      pure (fs, out))

/-- One run of `homfa` with the given words.  A usage error ends the program with a message. (src/main.cpp:590-755) -/
inductive RunHomfa (L : Lib N n l) (stdin : List Char) (fs : Files) (toks : List String) : Res (Files × List Char) → Prop
  | call {c r} : homfaMain (fun f => (fs f).isSome) toks = .ok (some c) → Exec L stdin fs c r → RunHomfa L stdin fs toks r
  | usage : homfaMain (fun f => (fs f).isSome) toks = .ok none → RunHomfa L stdin fs toks (.error .die)
  | fails {e} : homfaMain (fun f => (fs f).isSome) toks = .error e → RunHomfa L stdin fs toks (.error e)

/-- A sequence of runs, each started when the one before has ended normally; the text is what they all print. (test_homfa.sh:25-59) -/
inductive Script (L : Lib N n l) : Files → List (List String) → Res (Files × List Char) → Prop
  | nil {fs} : Script L fs [] (.ok (fs, []))
  | next {fs toks fs1 o1 rest r} : RunHomfa L [] fs toks (.ok (fs1, o1)) → Script L fs1 rest r →
      Script L fs (toks :: rest) (r.map fun p => (p.1, o1 ++ p.2))
  | stop {fs toks rest e} : RunHomfa L [] fs toks (.error e) → Script L fs (toks :: rest) (.error e)

end Homfa.Cli
