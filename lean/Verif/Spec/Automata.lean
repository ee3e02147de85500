/-!
# Textbook automata over the alphabet {0,1}, independent of the code

Words are `List Bool`.  These definitions are the yardstick the properties are stated against.
-/

namespace Homfa.Spec

/-- One labelled path of a (possibly nondeterministic) automaton with transition relation `step`. -/
inductive Path {σ : Type} (step : σ → Bool → σ → Prop) : σ → List Bool → σ → Prop
  | nil (q : σ) : Path step q [] q
  | cons {p q r : σ} {b : Bool} {w : List Bool} : step p b q → Path step q w r → Path step p (b :: w) r

/-- Acceptance by a nondeterministic automaton: some path labelled `w` leads from an initial to a final state. -/
def NfaAccepts {σ : Type} (init final : σ → Prop) (step : σ → Bool → σ → Prop) (w : List Bool) : Prop :=
  ∃ p r, init p ∧ Path step p w r ∧ final r

/-- A deterministic automaton with states `σ`. -/
structure Dfa (σ : Type) where
  start : σ
  next : σ → Bool → σ
  accept : σ → Bool

/-- The state reached from `q` on the word `w`. -/
def Dfa.run {σ : Type} (d : Dfa σ) (q : σ) (w : List Bool) : σ := w.foldl d.next q

/-- Acceptance by a deterministic automaton. -/
def Dfa.accepts {σ : Type} (d : Dfa σ) (w : List Bool) : Bool := d.accept (d.run d.start w)

/-- The transition relation described by a table of rows (state number, successors on 0, successors on 1), the state
being the row's position. -/
def tableStep (dn : List (Nat × List Nat × List Nat)) (p : Nat) (b : Bool) (q : Nat) : Prop :=
  ∃ t, dn[p]? = some t ∧ q ∈ (if b then t.2.2 else t.2.1)

end Homfa.Spec
