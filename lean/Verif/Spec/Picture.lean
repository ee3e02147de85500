import Verif.Spec.Dot
import Verif.Spec.Temporal
/-!
# Specification: what a picture of an automaton means

How a person reads the drawing: begin at the state that the start arrow points to, follow for each bit an arrow that carries it, and accept if the state where
this ends is drawn with a double circle.
-/

namespace Homfa.Spec

/-- In the drawing the word `w` leads from `p` to `q` along the arrows. -/
inductive DotPath (stmts : List DotStmt) : Nat → List Bool → Nat → Prop
  | here (p : Nat) : DotPath stmts p [] p
  | arrow {p r q : Nat} {l : List Bool} {b : Bool} {w : List Bool} : .edge p r l ∈ stmts → b ∈ l → DotPath stmts r w q → DotPath stmts p (b :: w) q

/-- The drawing accepts `w`: from a state that a start arrow points to, `w` leads to a double circle. -/
def DotAccepts (stmts : List DotStmt) (w : List Bool) : Prop := ∃ p q, .start p ∈ stmts ∧ DotPath stmts p w q ∧ .node q true ∈ stmts

/-- the statement draws a circle -/
def DotStmt.isNode : DotStmt → Bool
  | .node _ _ => true
  | _ => false

/-- the number of circles in the drawing -/
def dotStates (stmts : List DotStmt) : Nat := stmts.countP DotStmt.isNode

/-- `w` is the record of some complete steps, `n` bits each, that are the beginning of a behaviour satisfying the formula (or of no step at all); with `cutOff` it may
also stop in the middle of such a step. -/
def FormulaWord (φ : Formula) (n : Nat) (cutOff : Bool) (w : List Bool) : Prop :=
  ∃ (v : List Bool) (letters : List (List Bool)), (cutOff = false → v = []) ∧ (∀ a ∈ letters, a.length = n) ∧ w ++ v = letters.flatten ∧
    (letters = [] ∨ ∃ σ, BeginsWith σ letters ∧ φ.Holds σ)

end Homfa.Spec
