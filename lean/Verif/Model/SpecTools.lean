import Verif.Model.Text
import Verif.Model.Minimize
import Verif.Model.Ltl
/-!
# Model of the spec conversion commands of src/main.cpp

Standard input / the named file is given by its text, standard output is the resulting text.
-/

namespace Homfa

/-- `do_spec2spec`, src/main.cpp:482-495. -/
def doSpec2spec (spec : List Char) (minimized reversed negated : Bool) : Res (List Char) := do
  let g ← Graph.fromIstream spec
  let g ← (if negated then g.negated else pure g : Res Graph)
  let g ← (if reversed then g.reversed else pure g : Res Graph)
  let g ← (if minimized then g.minimized else pure g : Res Graph)
  g.dump

/-- `do_spec2dot`, src/main.cpp:497-504. -/
def doSpec2dot (spec : List Char) : Res (List Char) := do
  let g ← Graph.fromIstream spec
  g.dumpDot

/-- `do_att2spec`, src/main.cpp:506-513. -/
def doAtt2spec (att : List Char) : Res (List Char) := do
  let g ← Graph.fromAttIstream att
  g.dump

/-- `do_spec2att`, src/main.cpp:515-522. -/
def doSpec2att (spec : List Char) : Res (List Char) := do
  let g ← Graph.fromIstream spec
  g.dumpAtt

/-- `do_ltl2spec`, src/main.cpp:474-480, from the monitor of the formula. -/
def doLtl2spec (aut : Monitor) (numVars : Nat) (allFinal : Bool) : Res (List Char) := do
  let g ← Graph.fromMonitor aut numVars allFinal
  g.dump

end Homfa
