import Verif.Model.Parallel
import Verif.Spec.World

/-! # Commands that run at the same time -/

namespace Homfa.Cli

variable {N n l : Nat}

/-- Commands that do not disturb one another: no line names the output file of another one. -/
def Independent (cmds : List (List String)) : Prop :=
  cmds.Pairwise fun a b => (∀ f, ["--out", f] <:+: a → f ∉ b) ∧ ∀ f, ["--out", f] <:+: b → f ∉ a

/-- A command that runs at the same time as others: its line, its accesses to files, and what it prints or how it fails. -/
structure Proc where
  line : List String
  acts : List Act
  outcome : Res (List Char)

/-- The commands are started together, run in any interleaving, and have all ended when the files are `fs'`. -/
def Together (L : Lib N n l) (fs : Files) (ps : List Proc) (fs' : Files) : Prop :=
  (∀ p ∈ ps, Runs L [] p.line p.acts p.outcome) ∧ Parallel fs (ps.map (·.acts)) fs'

/-- All texts, in the order of the commands; if some commands fail, the error of the first of them. -/
def allOf : List (Res (List Char)) → Res (List Char)
  | [] => .ok []
  | .ok o :: rs => (allOf rs).map fun t => o ++ t
  | .error e :: _ => .error e

/-- A line of the shell, or several calls of `homfa` in the background followed by `wait`. -/
inductive Job where
  | one (c : ShellCmd)
  | par (cmds : List (List String))

/-- the commands of a job, one after the other -/
def Job.cmds : Job → List ShellCmd
  | .one c => [c]
  | .par cmds => cmds.map .homfa

/-- Jobs, each started when the one before has ended normally. -/
inductive Schedule (L : Lib N n l) : Files → List Job → Res (Files × List Char) → Prop
  | nil {fs} : Schedule L fs [] (.ok (fs, []))
  | one {fs c fs1 o1 rest r} : Session L fs [c] (.ok (fs1, o1)) → Schedule L fs1 rest r →
      Schedule L fs (.one c :: rest) (r.map fun p => (p.1, o1 ++ p.2))
  | oneStop {fs c rest e} : Session L fs [c] (.error e) → Schedule L fs (.one c :: rest) (.error e)
  | par {fs ps fs1 o1 rest r} : Together L fs ps fs1 → allOf (ps.map (·.outcome)) = .ok o1 → Schedule L fs1 rest r →
      Schedule L fs (.par (ps.map (·.line)) :: rest) (r.map fun p => (p.1, o1 ++ p.2))
  | parStop {fs ps fs1 e rest} : Together L fs ps fs1 → allOf (ps.map (·.outcome)) = .error e →
      Schedule L fs (.par (ps.map (·.line)) :: rest) (.error e)

end Homfa.Cli
