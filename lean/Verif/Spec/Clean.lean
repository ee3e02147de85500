import Verif.Model.Shell
/-!
# Orderly ends of a program
-/

namespace Homfa

/-- The program returns, or it stops itself: by an error message and exit status, by a failing assertion, or by an uncaught `std::out_of_range`.  Excluded are undefined behaviour, an endless loop, reading an empty `std::optional`, and a number without digits. -/
def Orderly {α : Type} (r : Res α) : Prop :=
  ∀ e, r = .error e → e = .die ∨ e = .assertFail ∨ e = .outOfRange

/-- The sizes that a call must respect.  `run block`: the spec has less than 2^30 states, which `int` can count.  `run flut`: the tables can
be indexed by `int` and fit in a polynomial of degree `N`; the default values of the options do when `N` is at least 256. -/
def Fits (N : Nat) (fs : Cli.Files) : Cli.Call → Prop
  | .runBlock spec _ _ _ _ _ => ∀ b g, fs spec = some b → Graph.fromIstream (Cli.textOf b) = .ok g → g.size < 2 ^ 30
  | .runFlut _ _ _ _ _ queue _ _ depth _ _ => queue < 31 ∧ ∀ d, depth = some d → d < 31 ∧ 2 ^ d ≤ N
  | _ => True

end Homfa
