import Verif.Spec.Dot
/-!
# Specification: the statements of a DOT drawing of a nondeterministic automaton

As in `Verif.Spec.Dot`, with arrows labelled ε from one small circle `I0` to the initial states in the place of the start arrow.
-/

namespace Homfa
namespace Spec

/-- One statement of the drawing. -/
inductive NfaStmt where
  /-- the arrow labelled ε from the start circle to an initial state -/
  | eps (q : Nat)
  /-- the circle of state `q`, doubled iff `final` -/
  | node (q : Nat) (final : Bool)
  /-- one arrow labelled with the listed letters -/
  | edge (p q : Nat) (letters : List Bool)
  deriving DecidableEq

/-- concrete syntax of a statement -/
def NfaStmt.text : NfaStmt → List Char
  | .eps q => "I0 -> ".toList ++ dotNum q ++ " [label=\"ε\"]".toList
  | .node q f => (DotStmt.node q f).text
  | .edge p q l => (DotStmt.edge p q l).text

/-- `t` is the list of statements, each preceded by at least one blank or newline. -/
inductive NfaBody : List Char → List NfaStmt → Prop
  | nil : NfaBody [] []
  | cons (ws t : List Char) (s : NfaStmt) (ss : List NfaStmt) : ws ≠ [] → (∀ c ∈ ws, c = ' ' ∨ c = '\n') → NfaBody t ss →
      NfaBody (ws ++ s.text ++ t) (s :: ss)

/-- `text` is a drawing consisting of the given statements; before the closing brace there may be white space. -/
def NfaDrawing (text : List Char) (stmts : List NfaStmt) : Prop :=
  ∃ body ws, NfaBody body stmts ∧ (∀ c ∈ ws, c = ' ' ∨ c = '\n') ∧
    text = dotHeader ++ "\n  I -> I0\n  I0 [label=\"\"]".toList ++ body ++ ws ++ "}\n".toList

/-- In the drawing the word `w` leads from `p` to `q` along the arrows. -/
inductive NfaDotPath (stmts : List NfaStmt) : Nat → List Bool → Nat → Prop
  | here (p : Nat) : NfaDotPath stmts p [] p
  | arrow {p r q : Nat} {l : List Bool} {b : Bool} {w : List Bool} : .edge p r l ∈ stmts → b ∈ l → NfaDotPath stmts r w q → NfaDotPath stmts p (b :: w) q

/-- The drawing accepts `w`: from a state that an arrow labelled ε points to, `w` leads to a double circle. -/
def NfaDotAccepts (stmts : List NfaStmt) (w : List Bool) : Prop := ∃ p q, .eps p ∈ stmts ∧ NfaDotPath stmts p w q ∧ .node q true ∈ stmts

end Spec
end Homfa
