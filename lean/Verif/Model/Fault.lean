import Verif.Model.Crash

/-!
# Runs in which writing fails

The disk is full, a quota is reached, a device reports an error: a system call `write` stores only a part of the bytes, or nothing, and reports
it.  What the program gets to know is what the output stream tells it: `sputn` returns how many bytes were taken
(src/tfhepp_util.cpp:18-25 asserts that all were; cereal throws otherwise, and src/archive.hpp:51-65 turns the exception into an exit with a
message).  A stream keeps the last bytes in a buffer and writes them when it is destroyed, where nobody looks at the outcome.

`cap` is the size of the buffer (8191 bytes in libstdc++).  Which bytes are kept, in which pieces an archive hands over its bytes, and which
calls fail and how is left open.  What a command that ends abnormally leaves behind is not described here (see `Interrupted`).
-/

namespace Homfa.Cli

variable {N n l : Nat}

/-- An output stream on a file: the bytes that have reached the file and those in the buffer. (src/main.cpp:244, src/archive.hpp:60) -/
structure OutStream where
  file : List Byte
  pending : List Byte

/-- `os.rdbuf()->sputn(d)` and its answer (src/tfhepp_util.cpp:22-24) -/
inductive OutStream.Sputn (cap : Nat) (o : OutStream) (d : List Byte) : OutStream → Nat → Prop
  /-- some bytes are written, the rest is kept -/
  | taken {a b} : a ++ b = o.pending ++ d → b.length ≤ cap → Sputn cap o d ⟨o.file ++ a, b⟩ d.length
  /-- an error: only a part is written -/
  | short {p rest k} : p <+: o.pending ++ d → k < d.length → Sputn cap o d ⟨o.file ++ p, rest⟩ k

/-- A sequence of `save_binary` (src/tfhepp_util.cpp:18-25; likewise cereal's, with another error): each asserts that all bytes were taken. -/
inductive SaveAll (cap : Nat) (e : Err) : OutStream → List (List Byte) → Res OutStream → Prop
  | nil {o} : SaveAll cap e o [] (.ok o)
  | next {o d o' k ds r} : OutStream.Sputn cap o d o' k → k = d.length → SaveAll cap e o' ds r → SaveAll cap e o (d :: ds) r
  | stop {o d o' k ds} : OutStream.Sputn cap o d o' k → k ≠ d.length → SaveAll cap e o (d :: ds) (.error e)

/-- A file is opened, the bytes are written in pieces, and the stream is destroyed (src/main.cpp:244-251, src/archive.hpp:51-65): the contents of
the file if the function returns.  The destructor writes what is left in the buffer and ignores errors. -/
inductive Stored (cap : Nat) (e : Err) (bytes : List Byte) : Res (List Byte) → Prop
  | unopened : Stored cap e bytes (.error .assertFail)
  | closed {ds o p} : ds.flatten = bytes → SaveAll cap e ⟨[], []⟩ ds (.ok o) → p <+: o.pending → Stored cap e bytes (.ok (o.file ++ p))
  | stopped {ds e'} : ds.flatten = bytes → SaveAll cap e ⟨[], []⟩ ds (.error e') → Stored cap e bytes (.error e')

/-- `write_to_archive` for the results of a run, one after the other (src/archive.hpp:49-68) -/
inductive StoredAll (L : Lib N n l) (cap : Nat) : Files → List (OutFile × TLWE N) → Res Files → Prop
  | nil {fs} : StoredAll L cap fs [] (.ok fs)
  | next {fs f c rs p r} : Stored cap .die (L.saveRes c) (.ok p) → StoredAll L cap (fs.set (OutFile.path f) p) rs r →
      StoredAll L cap fs ((f, c) :: rs) r
  | stop {fs f c rs e} : Stored cap .die (L.saveRes c) (.error e) → StoredAll L cap fs ((f, c) :: rs) (.error e)

/-- the commands that print a text and write no file (src/main.cpp:466-534) -/
def Call.printsOnly : Call → Bool
  | .dec .. | .runPlain .. => true
  | c => c.isConverter

/-- The functions called by `main` (src/main.cpp:225-536) when writing may fail. -/
inductive ExecFaulty (L : Lib N n l) (cap : Nat) (stdin : List Char) (fs : Files) : Call → Res (Files × List Char) → Prop
  /-- it ends abnormally for a reason other than writing -/
  | stops {c e} : Exec L stdin fs c (.error e) → ExecFaulty L cap stdin fs c (.error e)
  /-- errors of the standard output are not noticed -/
  | prints {c fs' out o} : c.printsOnly = true → Exec L stdin fs c (.ok (fs', out)) → o <+: out → ExecFaulty L cap stdin fs c (.ok (fs', o))
  | genkey (r : Nat) {out w} : Stored cap .die (L.saveKey (L.newKey r)) w →
      ExecFaulty L cap stdin fs (.genkey out) (w.map fun p => (fs.set out p, []))
  | genbkey (r : Nat) {skey out k w} : readArchive L.loadKey (fs skey) = .ok k → Stored cap .die (L.saveBKey (L.newBKey r k)) w →
      ExecFaulty L cap stdin fs (.genbkey skey out) (w.map fun p => (fs.set out p, []))
  | enc (rand : Nat → Nat) {skey input out ap k b w} : readArchive L.loadKey (fs skey) = .ok k →
      doEnc (L.client k) rand ((fs.set out []) input) ap = .ok b → Stored cap .assertFail b w →
      ExecFaulty L cap stdin fs (.enc skey input out ap) (w.map fun p => ((fs.set out []).set out p, []))
  | runOffline {spec input out boot bkey sanitize pre cs b s c w} : Fetch .reversed (fs input) (.ok (pre, cs)) →
      readArchive L.loadBKey (fs bkey) = .ok b → readSpec (fs spec) = .ok s →
      doRunOffline (L.server b) s (pre.headD 0) cs boot sanitize = .ok c → Stored cap .die (L.saveRes c) w →
      ExecFaulty L cap stdin fs (.runOffline spec input out boot bkey sanitize) (w.map fun p => (fs.set out p, []))
  | runReverse {spec input out outDir freq boot isRev bkey sanitize pre cs b s rs w} : Fetch .forward (fs input) (.ok (pre, cs)) →
      readArchive L.loadBKey (fs bkey) = .ok b → readSpec (fs spec) = .ok s →
      doRunReverse (L.server b) s (pre.getLastD 0) cs out outDir freq boot isRev sanitize = .ok rs → StoredAll L cap fs rs w →
      ExecFaulty L cap stdin fs (.runReverse spec input out outDir freq boot isRev bkey sanitize) (w.map fun fs' => (fs', []))
  | runBlock {spec input out queue bkey sanitize pre cs b s c w} : Fetch .forward (fs input) (.ok (pre, cs)) →
      readSpec (fs spec) = .ok s → readArchive L.loadBKey (fs bkey) = .ok b →
      doRunBlock (L.server b) s cs queue sanitize = .ok c → Stored cap .die (L.saveRes c) w →
      ExecFaulty L cap stdin fs (.runBlock spec input out queue bkey sanitize) (w.map fun p => (fs.set out p, []))
  | runFlut {spec input out outDir freq queue boot bkey maxSecond debugSkey sanitize pre cs b s rs w} :
      Fetch .forward (fs input) (.ok (pre, cs)) → readSpec (fs spec) = .ok s → readArchive L.loadBKey (fs bkey) = .ok b →
      readDebugKey L fs debugSkey = .ok () →
      doRunFlut (L.server b) s (pre.getLastD 0) cs out outDir freq queue boot maxSecond sanitize = .ok rs → StoredAll L cap fs rs w →
      ExecFaulty L cap stdin fs (.runFlut spec input out outDir freq queue boot bkey maxSecond debugSkey sanitize)
        (w.map fun fs' => (fs', []))

/-- One run of `homfa` when writing may fail. (src/main.cpp:590-755) -/
inductive RunFaulty (L : Lib N n l) (cap : Nat) (stdin : List Char) (fs : Files) (toks : List String) : Res (Files × List Char) → Prop
  | call {c r} : homfaMain (fun f => (fs f).isSome) toks = .ok (some c) → ExecFaulty L cap stdin fs c r → RunFaulty L cap stdin fs toks r
  | usage : homfaMain (fun f => (fs f).isSome) toks = .ok none → RunFaulty L cap stdin fs toks (.error .die)
  | fails {e} : homfaMain (fun f => (fs f).isSome) toks = .error e → RunFaulty L cap stdin fs toks (.error e)

/-- A sequence of runs in which writing may fail, each started when the one before has ended normally (`a && b && c`). (test_homfa.sh:25-59) -/
inductive FaultyScript (L : Lib N n l) (cap : Nat) : Files → List (List String) → Res (Files × List Char) → Prop
  | nil {fs} : FaultyScript L cap fs [] (.ok (fs, []))
  | next {fs toks fs1 o1 rest r} : RunFaulty L cap [] fs toks (.ok (fs1, o1)) → FaultyScript L cap fs1 rest r →
      FaultyScript L cap fs (toks :: rest) (r.map fun p => (p.1, o1 ++ p.2))
  | stop {fs toks rest e} : RunFaulty L cap [] fs toks (.error e) → FaultyScript L cap fs (toks :: rest) (.error e)

end Homfa.Cli
