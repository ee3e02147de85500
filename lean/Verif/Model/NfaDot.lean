import Verif.Model.Text
import Verif.Model.Nfa
/-!
# Model of the drawing of a nondeterministic automaton (src/graph.cpp:55-83)

The function is an aid for debugging: nothing in the repository calls it.
-/

namespace Homfa

/-- The two loops over the successors of a row, src/graph.cpp:71-79. -/
def nfaDotArrows (os : List Char) (q : Nat) (q0s q1s : List Nat) : List Char :=
  let os := q0s.foldl (fun os q0 =>
    if q1s.find? (· == q0) = none then os ++ "  ".toList ++ showNat q ++ " -> ".toList ++ showNat q0 ++ " [label=\"0\"]\n".toList
    else os ++ "  ".toList ++ showNat q ++ " -> ".toList ++ showNat q0 ++ " [label=\"0,1\"]\n".toList) os
  q1s.foldl (fun os q1 =>
    if q0s.find? (· == q1) = none then os ++ "  ".toList ++ showNat q ++ " -> ".toList ++ showNat q1 ++ " [label=\"1\"]\n".toList
    else os) os

/-- `nfa_dump_dot`, src/graph.cpp:55-82; the sets are lists in increasing order. -/
def nfaDumpDot (initSts finalSts : List Nat) (delta : NFADelta) : List Char :=
  let os := "digraph \"graph\" {\n".toList ++ "rankdir=\"LR\"".toList ++ "  node[shape=\"circle\"]\n".toList ++
    "  I [label=\"\", style=invis, width=0]\n".toList ++ "  I -> I0\n".toList ++ "  I0 [label=\"\"]\n".toList
  let os := initSts.foldl (fun os q => os ++ "  I0 -> ".toList ++ showNat q ++ " [label=\"ε\"]\n".toList) os
  let os := delta.foldl (fun os t =>
    let os := os ++ "  ".toList ++ showNat t.1 ++ " [label=\"".toList ++ showNat t.1 ++ "\"".toList ++
      (if finalSts.contains t.1 then ", peripheries=2".toList else []) ++ "]".toList
    nfaDotArrows os t.1 t.2.1 t.2.2) os
  os ++ "}\n".toList

end Homfa
