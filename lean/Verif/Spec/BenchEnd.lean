import Verif.Spec.BenchLog
import Verif.Spec.Clean
/-!
# Orderly ends of the benchmark program
-/

namespace Homfa.Cli

variable {N n l : Nat}

/-- The sizes that a call must respect.  `bbs`: the spec has less than 2^30 states, which `int` can count.  `qtrlwe2`: the tables can be
indexed by `int` and fit in a polynomial of degree `N`. -/
def BenchFits (N : Nat) (fs : Files) : Call → Prop
  | .benchBlock spec _ _ _ _ _ => ∀ b g, fs spec = some b → Graph.fromIstream (textOf b) = .ok g → g.size < 2 ^ 30
  | .benchFlut _ _ _ depth queue _ _ _ => queue < 31 ∧ depth < 31 ∧ 2 ^ depth ≤ N
  | _ => True

/-- Every run of the benchmark program prints these lines, then an error message with a backtrace, and stops itself; and there is such a run. -/
def AlwaysStops (L : Lib N n l) (fs : Files) (toks : List String) (rows : List Row) : Prop :=
  (∃ text r, RunBench L fs toks text r) ∧ ∀ text r, RunBench L fs toks text r → r = .error .die ∧ ∃ message trace, Shows (rows ++
    [⟨"error", .message message⟩, ⟨"error", .message "Preparing backtrace...".toList⟩, ⟨"error", .message trace⟩]) text

end Homfa.Cli
