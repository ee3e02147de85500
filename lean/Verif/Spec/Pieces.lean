import Verif.Spec.Shell
import Verif.Spec.Input

/-! # An input that arrives in pieces -/

namespace Homfa.Cli

variable {N n l : Nat}

/-- A command line of the shell: a call of `homfa`, `cat src >> dst`, `homfa ... > file`, `cp src dst`, `rm -f file`, or writing a file
by other means, say with an editor. -/
inductive ShellCmd where
  | homfa (args : List String)
  | append (src dst : String)
  | redirect (args : List String) (file : String)
  | copy (src dst : String)
  | remove (file : String)
  | write (file : String) (bytes : List Byte)

/-- a file is removed -/
def Files.del (fs : Files) (f : String) : Files := fun g => if g = f then none else fs g

/-- A sequence of command lines, each started when the one before has ended normally; the text is what they all print. -/
inductive Session (L : Lib N n l) : Files → List ShellCmd → Res (Files × List Char) → Prop
  | nil {fs} : Session L fs [] (.ok (fs, []))
  | next {fs args fs1 o1 rest r} : RunHomfa L [] fs args (.ok (fs1, o1)) → Session L fs1 rest r →
      Session L fs (.homfa args :: rest) (r.map fun p => (p.1, o1 ++ p.2))
  | stop {fs args rest e} : RunHomfa L [] fs args (.error e) → Session L fs (.homfa args :: rest) (.error e)
  | cat {fs src dst b rest r} : fs src = some b → Session L (fs.set dst ((fs dst).getD [] ++ b)) rest r → Session L fs (.append src dst :: rest) r
  | noFile {fs src dst rest} : fs src = none → Session L fs (.append src dst :: rest) (.error .die)
  | redirect {fs args file fs1 o1 rest r} : RunHomfa L [] (fs.set file []) args (.ok (fs1, o1)) →
      Session L (fs1.set file (o1.map fun c => BitVec.ofNat 8 c.toNat)) rest r → Session L fs (.redirect args file :: rest) r
  | redirectStop {fs args file rest e} : RunHomfa L [] (fs.set file []) args (.error e) → Session L fs (.redirect args file :: rest) (.error e)
  | copy {fs src dst b rest r} : fs src = some b → Session L (fs.set dst b) rest r → Session L fs (.copy src dst :: rest) r
  | noCopy {fs src dst rest} : fs src = none → Session L fs (.copy src dst :: rest) (.error .die)
  | remove {fs file rest r} : Session L (fs.del file) rest r → Session L fs (.remove file :: rest) r
  | write {fs file b rest r} : Session L (fs.set file b) rest r → Session L fs (.write file b :: rest) r

/-- As `AlwaysPrints`, for a session. -/
def SessionPrints (L : Lib N n l) (fs : Files) (cmds : List ShellCmd) (out : List Char) (changed : List String) : Prop :=
  (∃ r, Session L fs cmds r) ∧ ∀ r, Session L fs cmds r → ∃ fs', r = .ok (fs', out) ∧ ∀ f, f ∉ changed → fs' f = fs f

/-- `run plain` prints `out` for the spec and the input, whatever the files are called. -/
def PlainPrints (L : Lib N n l) (specB inB : List Byte) (ap : Nat) (out : List Char) : Prop :=
  ∃ (fs fs' : Files) (S I : String), Word S ∧ Word I ∧ fs S = some specB ∧ fs I = some inB ∧
    RunHomfa L [] fs ["run", "plain", "--ap", toString ap, "--spec", S, "--in", I] (.ok (fs', out))

/-- A piece of the input: the file with it, its bytes, and whether the verdict on the input up to here is asked for. -/
structure Piece where
  file : String
  bytes : List Byte
  ask : Bool

/-- What is done with one piece: `homfa enc` into the file `T`, which is appended to `C`; if asked, the run command `X` and `dec`. -/
def Piece.cmds (p : Piece) (ap : Nat) (K T C R : String) (X : List String) : List ShellCmd :=
  [.homfa ["enc", "--ap", toString ap, "--key", K, "--in", p.file, "--out", T], .append T C] ++
    if p.ask then [.homfa X, .homfa ["dec", "--key", K, "--in", R]] else []

/-- The whole session: the keys, then piece after piece. -/
def piecesSession (ps : List Piece) (ap : Nat) (K B T C R : String) (X : List String) : List ShellCmd :=
  .homfa ["genkey", "--out", K] :: .homfa ["genbkey", "--key", K, "--out", B] :: ps.flatMap (·.cmds ap K T C R X)

/-- `out` is what has to be printed for the pieces `ps` that follow the input `before`: for each piece asked for, what `run plain` prints for
all of the input up to its end. -/
inductive Verdicts (L : Lib N n l) (specB : List Byte) (ap : Nat) : List Byte → List Piece → List Char → Prop
  | nil {before} : Verdicts L specB ap before [] []
  | skip {before p ps out} : p.ask = false → Verdicts L specB ap (before ++ p.bytes) ps out → Verdicts L specB ap before (p :: ps) out
  | ask {before p ps o out} : p.ask = true → PlainPrints L specB (before ++ p.bytes) ap o → Verdicts L specB ap (before ++ p.bytes) ps out →
      Verdicts L specB ap before (p :: ps) (o ++ out)

/-- The names of a session: words; the files that are made have different names, none of them that of the spec or of a piece. -/
structure PieceNames (S K B T C R : String) (ps : List Piece) : Prop where
  words : ∀ f ∈ [S, K, B, T, C, R], Word f
  distinct : [S, K, B, T, C, R].Nodup
  pieceWords : ∀ p ∈ ps, Word p.file
  pieces : ∀ p ∈ ps, p.file ∉ [K, B, T, C, R]

end Homfa.Cli
