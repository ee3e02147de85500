import Verif.Spec.Outage
import Verif.Spec.Parallel

/-! # Commands that run at the same time, some of which are stopped -/

namespace Homfa.Cli

variable {N n l : Nat}

/-- The accesses to files of a run that is stopped: the first ones of a run as it could have gone on. -/
def StoppedRun (L : Lib N n l) (line : List String) (acts : List Act) : Prop :=
  acts = [] ∨ ∃ as r, Runs L [] line as r ∧ acts <+: as

/-- The commands are started together and run in any interleaving.  Those marked `false` are stopped, each at any moment.  When all have ended
or are stopped, the files are `fs'`. -/
def TogetherStopped (L : Lib N n l) (fs : Files) (ps : List (Proc × Bool)) (fs' : Files) : Prop :=
  (∀ p ∈ ps, (p.2 = true → Runs L [] p.1.line p.1.acts p.1.outcome) ∧ (p.2 = false → StoppedRun L p.1.line p.1.acts)) ∧
    Parallel fs (ps.map (·.1.acts)) fs'

/-- what those that are not stopped print, or how the first of them fails -/
def textsOf (ps : List (Proc × Bool)) : Res (List Char) := allOf ((ps.filter (·.2)).map (·.1.outcome))

/-- A line of the shell, or several calls of `homfa` in the background followed by `wait`; those marked `false` are stopped. -/
inductive StoppableJob where
  | one (c : ShellCmd) (ends : Bool)
  | par (cmds : List (List String × Bool))

/-- the commands of a job, one after the other -/
def StoppableJob.cmds : StoppableJob → List (ShellCmd × Bool)
  | .one c ends => [(c, ends)]
  | .par cmds => cmds.map fun c => (.homfa c.1, c.2)

/-- Jobs, each started when the one before has ended or was stopped.  The text is what the commands that are not stopped print. -/
inductive StoppedSchedule (L : Lib N n l) : Files → List StoppableJob → Res (Files × List Char) → Prop
  | nil {fs} : StoppedSchedule L fs [] (.ok (fs, []))
  | one {fs c fs1 o1 rest r} : Session L fs [c] (.ok (fs1, o1)) → StoppedSchedule L fs1 rest r →
      StoppedSchedule L fs (.one c true :: rest) (r.map fun p => (p.1, o1 ++ p.2))
  | oneFails {fs c rest e} : Session L fs [c] (.error e) → StoppedSchedule L fs (.one c true :: rest) (.error e)
  | oneCut {fs c fs1 rest r} : CutShort L fs c fs1 → StoppedSchedule L fs1 rest r → StoppedSchedule L fs (.one c false :: rest) r
  | par {fs ps fs1 o1 rest r} : TogetherStopped L fs ps fs1 → textsOf ps = .ok o1 → StoppedSchedule L fs1 rest r →
      StoppedSchedule L fs (.par (ps.map fun p => (p.1.line, p.2)) :: rest) (r.map fun p => (p.1, o1 ++ p.2))
  | parFails {fs ps fs1 e rest} : TogetherStopped L fs ps fs1 → textsOf ps = .error e →
      StoppedSchedule L fs (.par (ps.map fun p => (p.1.line, p.2)) :: rest) (.error e)

end Homfa.Cli
