/-!
# Specification: the statements of a DOT drawing of an automaton

Only the grammar that is needed: a start arrow, one node per state, labelled arrows.  White space between statements does
not matter in DOT, so any is allowed.
-/

namespace Homfa
namespace Spec

/-- One statement of the drawing. -/
inductive DotStmt where
  /-- the arrow from the invisible node `I` to the initial state -/
  | start (q : Nat)
  /-- the circle of state `q`, doubled iff `final` -/
  | node (q : Nat) (final : Bool)
  /-- one arrow labelled with the listed letters -/
  | edge (p q : Nat) (letters : List Bool)
  deriving DecidableEq

/-- numeral of `n` -/
def dotNum (n : Nat) : List Char := Nat.toDigits 10 n

/-- letters separated by commas -/
def dotLetters (l : List Bool) : List Char := List.intercalate [','] (l.map fun b => if b then ['1'] else ['0'])

/-- concrete syntax of a statement -/
def DotStmt.text : DotStmt → List Char
  | .start q => "I -> ".toList ++ dotNum q
  | .node q f => dotNum q ++ " [label=\"".toList ++ dotNum q ++ "\"".toList ++ (if f then ", peripheries=2".toList else []) ++ "]".toList
  | .edge p q l => dotNum p ++ " -> ".toList ++ dotNum q ++ " [label=\"".toList ++ dotLetters l ++ "\"]".toList

/-- the fixed opening of every drawing: graph name, orientation, node shape, the invisible node -/
def dotHeader : List Char :=
  "digraph \"graph\" {\n".toList ++ "rankdir=\"LR\"".toList ++ "  node[shape=\"circle\"]\n".toList ++
    "  I [label=\"\", style=invis, width=0]".toList

/-- `DotBody t stmts`: `t` is the list of statements, each preceded by at least one blank or newline. -/
inductive DotBody : List Char → List DotStmt → Prop
  | nil : DotBody [] []
  | cons (ws t : List Char) (s : DotStmt) (ss : List DotStmt) : ws ≠ [] → (∀ c ∈ ws, c = ' ' ∨ c = '\n') → DotBody t ss →
      DotBody (ws ++ s.text ++ t) (s :: ss)

/-- `text` is a drawing consisting of the given statements. -/
def DotDrawing (text : List Char) (stmts : List DotStmt) : Prop :=
  ∃ body, DotBody body stmts ∧ text = dotHeader ++ body ++ "\n}\n".toList

end Spec
end Homfa
