import Verif.Model.Fault
import Verif.Spec.Outage

/-!
# Histories on a disk that may fail

Any write to a file may fail, and `homfa` may not notice it.  A command that does not end normally may have been stopped, or have ended itself
with an error.
-/

namespace Homfa.Cli

variable {N n l : Nat}

/-- A command that makes a file, decrypts a result or only prints, used as it is meant to be; or a `cp`, `rm` or editor.  As in `Step`, without the
lines that append to a file or send the text of a command to one. -/
inductive DiskStep (L : Lib N n l) (δ : Noise) : World → ShellCmd → World → List Char → Prop
  | genkey {w K} : Word K → DiskStep L δ w (.homfa ["genkey", "--out", K]) { w.set K (.key w.keys) with keys := w.keys + 1 } []
  | genbkey {w K B i} : Word K → Word B → w.holds K = .key i → DiskStep L δ w (.homfa ["genbkey", "--key", K, "--out", B]) (w.set B (.bkey i)) []
  | enc {w : World} {K I C : String} {i ap b} : Word K → Word I → Word C → w.holds K = .key i → w.holds I = .bytes b → I ≠ C → 0 < ap → ap < 2 ^ 64 →
      recordBytes ap ∣ b.length →
      DiskStep L δ w (.homfa ["enc", "--ap", toString ap, "--key", K, "--in", I, "--out", C]) (w.set C (.ctxts i ap b)) []
  | run {w : World} {B S C R : String} {i ap s b out X} : Word B → Word S → Word C → Word R → w.holds B = .bkey i → w.holds S = .bytes s →
      w.holds C = .ctxts i ap b → 8 * b.length * blockSize l N < 2 ^ 63 → RunLine N l δ s b ap B S C R X → PlainPrints L s b ap out →
      DiskStep L δ w (.homfa X) (w.set R (.result i out)) []
  | dec {w K R i out} : Word K → Word R → w.holds K = .key i → w.holds R = .result i out → DiskStep L δ w (.homfa ["dec", "--key", K, "--in", R]) w out
  /-- any command without `--out` that changes no file and whose text is determined by files of known bytes -/
  | known {w args o} : outWords args = [] → (∀ fs, w.Known fs → ∀ r, RunHomfa L [] fs args r ↔ r = .ok (fs, o)) → DiskStep L δ w (.homfa args) w o
  | copy {w : World} {src dst : String} : w.holds src ≠ .absent → w.holds src ≠ .other → DiskStep L δ w (.copy src dst) (w.set dst (w.holds src)) []
  | remove {w f} : DiskStep L δ w (.remove f) (w.set f .absent) []
  | write {w f b} : DiskStep L δ w (.write f b) (w.set f (.bytes b)) []

/-- Any number of commands: those marked `true` end normally, those marked `false` do not.  The texts are those the commands that end normally
have to print, one for each. -/
inductive DiskHistory (L : Lib N n l) (δ : Noise) : World → List (ShellCmd × Bool) → World → List (List Char) → Prop
  | nil {w} : DiskHistory L δ w [] w []
  | ends {w c w' o cs w'' outs} : DiskStep L δ w c w' o → DiskHistory L δ w' cs w'' outs → DiskHistory L δ w ((c, true) :: cs) w'' (o :: outs)
  | not {w c cs w'' outs} : DiskHistory L δ (w.lose c.outputs) cs w'' outs → DiskHistory L δ w ((c, false) :: cs) w'' outs

/-- What happens.  `cap` is the size of the buffer of an output stream.  A call of `homfa` that ends normally does so although any of its writes
may have failed; `cp`, `rm` and the editor end normally only if they succeed.  A command that does not end normally leaves anything in the files
it names as its output.  The texts are what the commands that end normally print, one for each. -/
inductive DiskSession (L : Lib N n l) (cap : Nat) : Files → List (ShellCmd × Bool) → Files → List (List Char) → Prop
  | nil {fs} : DiskSession L cap fs [] fs []
  | homfa {fs args fs1 o cs fs' os} : RunFaulty L cap [] fs args (.ok (fs1, o)) → DiskSession L cap fs1 cs fs' os →
      DiskSession L cap fs ((.homfa args, true) :: cs) fs' (o :: os)
  | other {fs c fs1 o cs fs' os} : (∀ args, c ≠ .homfa args) → Session L fs [c] (.ok (fs1, o)) → DiskSession L cap fs1 cs fs' os →
      DiskSession L cap fs ((c, true) :: cs) fs' (o :: os)
  | not {fs c fs1 cs fs' os} : (∀ f, f ∉ c.outputs → fs1 f = fs f) → DiskSession L cap fs1 cs fs' os → DiskSession L cap fs ((c, false) :: cs) fs' os

end Homfa.Cli
