import Verif.Proof.Reverse
/-! Properties C01, C02, C03: determinization and reversal. -/

namespace Homfa
open Spec

/-- An example NFA used for non-vacuity: 3 states, nondeterministic on input 1 ("the last but one bit is 1"). -/
def exNfa : NFADelta := [(0, [0], [0, 1]), (1, [2], [2]), (2, [], [])]

/-- **C01.** If no run of the NFA leaves the transition table, `Graph::from_nfa` returns a graph that accepts a word
exactly when some run of the NFA over that word leads from an initial to a final state. -/
theorem C01_from_nfa_language (init final : List Nat) (dn : NFADelta) (hinit : SSorted init)
    (hrange : ∀ p ∈ init, ∀ (w : List Bool) (q : Nat), Path (tableStep dn) p w q → q < dn.length) :
    ∃ g, Graph.fromNfa init final dn = .ok g ∧
      ∀ w, ∃ b, g.accepts w = .ok b ∧ (b = true ↔ NfaAccepts (· ∈ init) (· ∈ final) (tableStep dn) w) := by
  rcases FromNfa.fromNfa_total (fn := final) (dn := dn) hinit with ⟨⟨g, hg⟩, _⟩ | ⟨_, h⟩
  · obtain ⟨hwf, _, _, _, _, _, _, hacc⟩ := FromNfa.fromNfa_good hinit hg
    exact ⟨g, hg, fun w => ⟨g.dfa.accepts w, hwf.accepts_eq w, hacc w⟩⟩
  · exact absurd hrange h

/-- Tables whose rows only mention states of the table satisfy the range hypothesis. -/
theorem inRange_of_rows {init : List Nat} {dn : NFADelta} (hi : ∀ p ∈ init, p < dn.length)
    (hrow : ∀ t ∈ dn, (∀ q ∈ t.2.1, q < dn.length) ∧ (∀ q ∈ t.2.2, q < dn.length)) :
    ∀ p ∈ init, ∀ (w : List Bool) (q : Nat), Path (tableStep dn) p w q → q < dn.length := by
  intro p hp w q h
  have : p < dn.length := hi p hp
  clear hp
  induction h with
  | nil => exact this
  | cons hs _ ih =>
    obtain ⟨t, ht, hm⟩ := hs
    have := hrow t (List.mem_of_getElem? ht)
    apply ih
    split at hm
    · exact this.2 _ hm
    · exact this.1 _ hm

/-- Non-vacuity of C01: the hypotheses hold for `exNfa`, which is nondeterministic. -/
example : ∀ p ∈ [0], ∀ (w : List Bool) (q : Nat), Path (tableStep exNfa) p w q → q < exNfa.length :=
  inRange_of_rows (by decide) (by decide)

/-- The graph built for `exNfa` accepts 1,0 and rejects 0,1. -/
example : (do let g ← Graph.fromNfa [0] [2] exNfa; g.accepts [false, true, false]) = .ok true ∧
    (do let g ← Graph.fromNfa [0] [2] exNfa; g.accepts [true, false, true]) = .ok false := by decide

/-- **C02 (termination and failure).** `Graph::from_nfa` always ends; it throws `out_of_range` exactly when some run
reaches a state number outside the table, and succeeds otherwise. -/
theorem C02_from_nfa_terminates (init final : List Nat) (dn : NFADelta) (hinit : SSorted init) :
    (Graph.fromNfa init final dn = .error .outOfRange ↔
      ∃ p ∈ init, ∃ (w : List Bool) (q : Nat), Path (tableStep dn) p w q ∧ dn.length ≤ q) ∧
    (Graph.fromNfa init final dn = .error .outOfRange ∨ ∃ g, Graph.fromNfa init final dn = .ok g) := by
  rcases FromNfa.fromNfa_total (fn := final) (dn := dn) hinit with ⟨⟨g, hg⟩, hr⟩ | ⟨he, hr⟩
  · refine ⟨⟨fun h => by rw [hg] at h; simp at h, ?_⟩, .inr ⟨g, hg⟩⟩
    rintro ⟨p, hp, w, q, hpath, hlt⟩
    have := hr p hp w q hpath
    omega
  · refine ⟨⟨fun _ => ?_, fun _ => he⟩, .inl he⟩
    by_contra hne
    apply hr
    intro p hp w q hpath
    by_contra hlt
    exact hne ⟨p, hp, w, q, hpath, by omega⟩

/-- both outcomes occur -/
example : Graph.fromNfa [0] [] [(0, [7], [0])] = .error .outOfRange := by decide
example : ∃ g, Graph.fromNfa [0] [2] exNfa = .ok g := ⟨_, rfl⟩

/-- **C02 (shape of the result).** On success the graph has at most 2^n states, its initial state is 0, every state is
reached by some word, and two words lead to the same state exactly when they lead to the same set of NFA states. -/
theorem C02_from_nfa_trim (init final : List Nat) (dn : NFADelta) (hinit : SSorted init) (g : Graph)
    (hg : Graph.fromNfa init final dn = .ok g) :
    g.size ≤ 2 ^ dn.length ∧ g.initialState = 0 ∧
    (∀ q < g.size, ∃ w, g.runWord g.initialState w = .ok q) ∧
    (∀ u v, g.runWord g.initialState u = g.runWord g.initialState v ↔
      ∀ x, (∃ p ∈ init, Path (tableStep dn) p u x) ↔ (∃ p ∈ init, Path (tableStep dn) p v x)) := by
  obtain ⟨hwf, _, hin, hsz, _, hreach, hrun, _⟩ := FromNfa.fromNfa_good hinit hg
  refine ⟨hsz, hin, ?_, ?_⟩
  · intro q hq
    obtain ⟨w, hw⟩ := hreach q hq
    exact ⟨w, by rw [← hw]; exact (hwf.run_ok hwf.init_lt w).1⟩
  · intro u v
    have e : g.runWord g.initialState u = g.runWord g.initialState v ↔ u.foldl g.nx g.init = v.foldl g.nx g.init := by
      have hu := (hwf.run_ok hwf.init_lt u).1
      have hv := (hwf.run_ok hwf.init_lt v).1
      rw [show g.initialState = g.init from rfl, hu, hv]
      exact ⟨fun h => by injection h, fun h => by rw [h]⟩
    rw [e, hrun u v]
    constructor
    · intro h x
      rw [← FromNfa.mem_runSet, ← FromNfa.mem_runSet, h]
    · intro h
      refine (FromNfa.sorted_runSet hinit u).ext (FromNfa.sorted_runSet hinit v) (fun x => ?_)
      rw [FromNfa.mem_runSet, FromNfa.mem_runSet]; exact h x

/-- **C03.** `reversed()` of any well-formed graph succeeds and accepts exactly the reversed words. -/
theorem C03_reversed_language (g : Graph) (hg : g.WF) :
    ∃ r, g.reversed = .ok r ∧ r.WF ∧ ∀ w, r.accepts w = g.accepts w.reverse := by
  obtain ⟨r, h, hwf, _, _, _, hacc⟩ := Graph.reversed_spec hg
  exact ⟨r, h, hwf, fun w => by rw [hwf.accepts_eq, hg.accepts_eq, hacc]⟩

/-- A 3-state example graph: accepts words whose last two bits are 1,1; state 2 is final. -/
def exDelta : List (Nat × Nat × Nat) := [(0, 0, 1), (1, 0, 2), (2, 0, 2)]
def exGraph : Graph := Graph.built 0 [2] exDelta

/-- Non-vacuity: the example graph is what the constructor builds and is well-formed. -/
theorem exGraph_make : Graph.make 0 [2] exDelta = .ok exGraph := by decide
theorem exGraph_wf : exGraph.WF := by
  refine ⟨by decide, ?_, by decide, by decide⟩
  intro i t h
  match i with
  | 0 | 1 | 2 => simp [exGraph, Graph.built, exDelta] at h; subst h; rfl
  | n + 3 => simp [exGraph, Graph.built, exDelta] at h

example : (do let r ← exGraph.reversed; r.accepts [true, true, false]) = .ok true ∧
    exGraph.accepts [true, true, false] = .ok false ∧ exGraph.accepts [false, true, true] = .ok true := by decide

end Homfa
