import Verif.Model.Crash
import Verif.Spec.World

/-!
# Histories in which commands are stopped

Any command may be stopped at any moment: killed by the user or the system, or ended by itself with an error.  Only the files it was about to
write are lost then.
-/

namespace Homfa.Cli

variable {N n l : Nat}

/-- the words that follow a word `--out` -/
def outWords : List String → List String
  | a :: b :: rest => if a = "--out" then b :: outWords (b :: rest) else outWords (b :: rest)
  | _ => []

/-- the files a command line names as its output -/
def ShellCmd.outputs : ShellCmd → List String
  | .homfa args => outWords args
  | .redirect args file => file :: outWords args
  | .append _ dst => [dst]
  | .copy _ dst => [dst]
  | .remove file => [file]
  | .write file _ => [file]

/-- The files after a command line that did not end normally.  Nothing is assumed about the file an interrupted `cat`, `cp`, `rm`, editor or
redirection was to write. -/
inductive CutShort (L : Lib N n l) (fs : Files) : ShellCmd → Files → Prop
  | early {c} : CutShort L fs c fs
  | homfa {args fs1 o} : RunInterrupted L fs args (fs1, o) → CutShort L fs (.homfa args) fs1
  | redirect {args file fs1 o b} : RunInterrupted L (fs.set file []) args (fs1, o) → CutShort L fs (.redirect args file) (fs1.set file b)
  | append {src dst fs1} : (∀ f, f ≠ dst → fs1 f = fs f) → CutShort L fs (.append src dst) fs1
  | copy {src dst fs1} : (∀ f, f ≠ dst → fs1 f = fs f) → CutShort L fs (.copy src dst) fs1
  | remove {file fs1} : (∀ f, f ≠ file → fs1 f = fs f) → CutShort L fs (.remove file) fs1
  | write {file bytes fs1} : (∀ f, f ≠ file → fs1 f = fs f) → CutShort L fs (.write file bytes) fs1

/-- A session in which the command lines marked `false` are stopped at some moment.  The text is what the others print. -/
inductive StoppedSession (L : Lib N n l) : Files → List (ShellCmd × Bool) → Res (Files × List Char) → Prop
  | nil {fs} : StoppedSession L fs [] (.ok (fs, []))
  | done {fs c fs1 o1 rest r} : Session L fs [c] (.ok (fs1, o1)) → StoppedSession L fs1 rest r →
      StoppedSession L fs ((c, true) :: rest) (r.map fun p => (p.1, o1 ++ p.2))
  | fails {fs c e rest} : Session L fs [c] (.error e) → StoppedSession L fs ((c, true) :: rest) (.error e)
  | cut {fs c fs1 rest r} : CutShort L fs c fs1 → StoppedSession L fs1 rest r → StoppedSession L fs ((c, false) :: rest) r

/-- the files are lost, all others are as before -/
def World.lose (w : World) (files : List String) : World := { w with holds := fun f => if f ∈ files then .other else w.holds f }

/-- Any number of commands: those that end normally are used as they are meant to be, those that are stopped may be any. -/
inductive StoppedHistory (L : Lib N n l) (δ : Noise) : World → List (ShellCmd × Bool) → World → List Char → Prop
  | nil {w} : StoppedHistory L δ w [] w []
  | done {w c w' o cs w'' out} : Step L δ w c w' o → StoppedHistory L δ w' cs w'' out → StoppedHistory L δ w ((c, true) :: cs) w'' (o ++ out)
  | cut {w c cs w'' out} : StoppedHistory L δ (w.lose c.outputs) cs w'' out → StoppedHistory L δ w ((c, false) :: cs) w'' out

end Homfa.Cli
