import Verif.Model.Graph
/-!
# Vocabulary for statements about graphs
-/

namespace Homfa

/-- The representation invariant of a `std::set<int>`: strictly increasing. -/
abbrev SSorted (s : List Nat) : Prop := s.Pairwise (· < ·)

namespace Graph

/-- A graph as every factory of the library produces it: the output of the public constructor (possibly with the
depth cache filled) from a table indexed by position, with a valid initial state and a proper set of final states. -/
structure WF (g : Graph) : Prop where
  built : Graph.make g.init g.finals g.delta = .ok { g with statesAtDepth := [] }
  idx : ∀ (i : Nat) (t : Nat × Nat × Nat), g.delta[i]? = some t → t.1 = i
  init_lt : g.init < g.size
  fin_sorted : SSorted g.finals

end Graph
end Homfa
