import Verif.Proof.LtlReject
import Verif.Props.Text
/-! Properties C41, C42, C43, C54, C55: automata built from the monitor of an LTL formula.

Spot itself (parsing and translation of the formula) is not modelled: the theorems hold for every monitor with the properties
`MonitorOk` that Spot's output has. -/

namespace Homfa
open Spec

/-- The monitor of G(p0 -> X p1): two states, propositions p0 and p1 with BDD variables 4 and 7. -/
def exMonitor : Monitor where
  out := [[(.node 4 .tt .ff, 0), (.node 4 .ff .tt, 1)],
          [(.node 4 (.node 7 .ff .tt) .ff, 0), (.node 4 .ff (.node 7 .ff .tt), 1)]]
  init := 0
  varOf := fun i => if i = 0 then some 4 else if i = 1 then some 7 else none

/-- It satisfies the hypotheses below. -/
theorem exMonitor_ok : MonitorOk exMonitor 2 where
  init_lt := by decide
  dst_lt := by decide
  distinct := by
    intro i j v hi hj h1 h2
    have : i = 0 ∨ i = 1 := by omega
    have : j = 0 ∨ j = 1 := by omega
    rcases ‹i = 0 ∨ i = 1› with rfl | rfl <;> rcases ‹j = 0 ∨ j = 1› with rfl | rfl <;> simp_all [exMonitor] <;> omega
  ordered := by
    have o0 : ∀ lo hi, OrderedBdd exMonitor.varOf 2 1 lo → OrderedBdd exMonitor.varOf 2 1 hi → OrderedBdd exMonitor.varOf 2 0 (.node 4 lo hi) :=
      fun lo hi h1 h2 => ⟨0, rfl, by omega, by omega, h1, h2⟩
    have o1 : ∀ k ≤ 1, OrderedBdd exMonitor.varOf 2 k (.node 7 .ff .tt) := fun k hk => ⟨1, rfl, hk, by omega, trivial, trivial⟩
    intro es hes e he
    simp only [exMonitor, List.mem_cons, List.not_mem_nil, or_false] at hes
    rcases hes with rfl | rfl <;> simp only [List.mem_cons, List.not_mem_nil, or_false] at he <;> rcases he with rfl | rfl
    · exact o0 _ _ trivial trivial
    · exact o0 _ _ trivial trivial
    · exact o0 _ _ (o1 1 (by omega)) trivial
    · exact o0 _ _ trivial (o1 1 (by omega))
  satisfiable := by
    intro es hes e he
    simp only [exMonitor, List.mem_cons, List.not_mem_nil, or_false] at hes
    rcases hes with rfl | rfl <;> simp only [List.mem_cons, List.not_mem_nil, or_false] at he <;> rcases he with rfl | rfl
    · exact ⟨fun _ => false, rfl⟩
    · exact ⟨fun _ => true, rfl⟩
    · exact ⟨fun v => v == 7, rfl⟩
    · exact ⟨fun _ => true, rfl⟩

/-- **C41.** `Graph::from_ltl_formula` (without the all-final option) returns a graph that accepts a bit word exactly when the word is a sequence
of `n`-bit letters that the monitor can read from its initial state. -/
theorem C41_ltl_language (M : Monitor) (n : Nat) (hM : MonitorOk M n) :
    ∃ g, Graph.fromMonitor M n false = .ok g ∧ g.WF ∧
      ∀ w, ∃ b, g.accepts w = .ok b ∧ (b = true ↔
        ∃ (letters : List (List Bool)) (q : Nat), (∀ a ∈ letters, a.length = n) ∧ w = letters.flatten ∧ MonitorRun M M.init letters q) := by
  obtain ⟨F, D, h1, _, _, h4, h5, h6⟩ := Ltl.nfaTuple_lang' hM false
  have hs : SSorted [M.init] := List.pairwise_singleton _ _
  unfold Graph.fromMonitor
  rw [h1, Res.bind_ok]
  rcases FromNfa.fromNfa_total (fn := F) (dn := D) hs with ⟨⟨g, hg⟩, _⟩ | ⟨_, h⟩
  · obtain ⟨hwf, _, _, _, _, _, _, hacc⟩ := FromNfa.fromNfa_good hs hg
    refine ⟨g, hg, hwf, fun w => ⟨g.dfa.accepts w, hwf.accepts_eq w, ?_⟩⟩
    rw [hacc w, h6 w]
    rfl
  · refine absurd (fun p hp w q hpath => ?_) h
    rw [List.mem_singleton] at hp
    subst hp
    exact Ltl.paths_lt h5 h4 hpath

/-- The graph of G(p0 -> X p1) on some words: two letters p0, p1 / p0, not p1; a cut letter. -/
example : (do let g ← Graph.fromMonitor exMonitor 2 false; g.accepts [true, false, false, true]) = .ok true := by decide +kernel
example : (do let g ← Graph.fromMonitor exMonitor 2 false; g.accepts [true, false, true, false]) = .ok false := by decide +kernel
example : (do let g ← Graph.fromMonitor exMonitor 2 false; g.accepts [true, false, false]) = .ok false := by decide +kernel

/-- **C42.** `Graph::reversed_nfa_delta` reverses the language of a table whose entries are states of the table. -/
theorem C42_reversed_nfa_delta (D : NFADelta) (hD : ∀ t ∈ D, (∀ q ∈ t.2.1, q < D.length) ∧ (∀ q ∈ t.2.2, q < D.length))
    (init final : List Nat) :
    ∃ R, reversedNfaDelta D = .ok R ∧ R.length = D.length ∧
      ∀ w, NfaAccepts (· ∈ final) (· ∈ init) (tableStep R) w ↔ NfaAccepts (· ∈ init) (· ∈ final) (tableStep D) w.reverse := by
  obtain ⟨R, h1, h2, h3⟩ := Ltl.reversedNfaDelta_spec (D := D) (by
    rintro p b q ⟨t, g1, g2⟩
    have := hD t (List.mem_of_getElem? g1)
    cases b
    · exact this.1 q (by simpa using g2)
    · exact this.2 q (by simpa using g2))
  exact ⟨R, h1, h2, fun w => nfaAccepts_rev h3 w⟩

/-- A table with shared and missing successors. -/
example : reversedNfaDelta [(0, [0], [0, 1]), (1, [2], [2]), (2, [], [])] = .ok [(0, [0], [0]), (1, [], [0]), (2, [1], [1])] := by decide

/-- **C42.** `Graph::from_ltl_formula_reversed` accepts a word exactly when `Graph::from_ltl_formula`, called with the same arguments, accepts the word
read backwards. -/
theorem C42_ltl_reversed (M : Monitor) (n : Nat) (hM : MonitorOk M n) (allFinal : Bool) :
    ∃ g r, Graph.fromMonitor M n allFinal = .ok g ∧ Graph.fromMonitorReversed M n allFinal = .ok r ∧ r.WF ∧
      ∀ w, r.accepts w = g.accepts w.reverse := by
  obtain ⟨F, D, h1, h2, h3, h4, h5, _⟩ := Ltl.nfaTuple_lang' hM allFinal
  obtain ⟨R, r1, r2, r3⟩ := Ltl.reversedNfaDelta_spec h5
  have hs : SSorted [M.init] := List.pairwise_singleton _ _
  unfold Graph.fromMonitor Graph.fromMonitorReversed
  rw [h1, Res.bind_ok, Res.bind_ok]
  simp only [r1, Res.bind_ok]
  have h5' : ∀ p b q, tableStep R p b q → q < R.length := by
    intro p b q h
    obtain ⟨t, g1, _⟩ := (r3 q b p).1 h
    rw [r2]
    exact (List.getElem?_eq_some_iff.1 g1).1
  rcases FromNfa.fromNfa_total (fn := F) (dn := D) hs with ⟨⟨g, hg⟩, _⟩ | ⟨_, h⟩
  · rcases FromNfa.fromNfa_total (fn := [M.init]) (dn := R) h2 with ⟨⟨r, hr⟩, _⟩ | ⟨_, h⟩
    · obtain ⟨hwf, _, _, _, _, _, _, hacc⟩ := FromNfa.fromNfa_good hs hg
      obtain ⟨hwf', _, _, _, _, _, _, hacc'⟩ := FromNfa.fromNfa_good h2 hr
      refine ⟨g, r, hg, hr, hwf', fun w => ?_⟩
      rw [hwf'.accepts_eq, hwf.accepts_eq]
      congr 1
      rw [Bool.eq_iff_iff, hacc' w, hacc w.reverse]
      exact nfaAccepts_rev r3 w
    · refine absurd (fun p hp w q hpath => ?_) h
      exact Ltl.paths_lt h5' (by rw [r2]; exact h3 p hp) hpath
  · refine absurd (fun p hp w q hpath => ?_) h
    rw [List.mem_singleton] at hp
    subst hp
    exact Ltl.paths_lt h5 h4 hpath

example : (do let g ← Graph.fromMonitorReversed exMonitor 2 false; g.accepts [true, false, false, true]) = .ok true := by decide +kernel
example : (do let g ← Graph.fromMonitorReversed exMonitor 2 false; g.accepts [false, true, false, true]) = .ok false := by decide +kernel

/-- **C43.** With the all-final option the graph accepts exactly the prefixes, possibly cut inside a letter, of the words of C41. -/
theorem C43_ltl_prefixes (M : Monitor) (n : Nat) (hM : MonitorOk M n) :
    ∃ g, Graph.fromMonitor M n true = .ok g ∧ g.WF ∧
      ∀ w, ∃ b, g.accepts w = .ok b ∧ (b = true ↔
        ∃ (v : List Bool) (letters : List (List Bool)) (q : Nat),
          (∀ a ∈ letters, a.length = n) ∧ w ++ v = letters.flatten ∧ MonitorRun M M.init letters q) := by
  obtain ⟨F, D, h1, _, _, h4, h5, h6⟩ := Ltl.nfaTuple_lang' hM true
  have hs : SSorted [M.init] := List.pairwise_singleton _ _
  unfold Graph.fromMonitor
  rw [h1, Res.bind_ok]
  rcases FromNfa.fromNfa_total (fn := F) (dn := D) hs with ⟨⟨g, hg⟩, _⟩ | ⟨_, h⟩
  · obtain ⟨hwf, _, _, _, _, _, _, hacc⟩ := FromNfa.fromNfa_good hs hg
    refine ⟨g, hg, hwf, fun w => ⟨g.dfa.accepts w, hwf.accepts_eq w, ?_⟩⟩
    rw [hacc w, h6 w]
    rfl
  · refine absurd (fun p hp w q hpath => ?_) h
    rw [List.mem_singleton] at hp
    subst hp
    exact Ltl.paths_lt h5 h4 hpath

example : (do let g ← Graph.fromMonitor exMonitor 2 true; g.accepts [true, false, false]) = .ok true := by decide +kernel
example : (do let g ← Graph.fromMonitor exMonitor 2 true; g.accepts [true, false, true, false]) = .ok false := by decide +kernel

/-- **C54.** The specification printed by `ltl2spec`, read back by any command, is an automaton for the words of C41 (or their prefixes, with the
all-final option). -/
theorem C54_ltl2spec (M : Monitor) (n : Nat) (hM : MonitorOk M n) (allFinal : Bool) :
    ∃ (out : List Char) (g : Graph), doLtl2spec M n allFinal = .ok out ∧ g.dump = .ok out ∧
      (∀ w, ∃ b, g.accepts w = .ok b ∧ (b = true ↔
        ∃ (v : List Bool) (letters : List (List Bool)) (q : Nat), (allFinal = false → v = []) ∧
          (∀ a ∈ letters, a.length = n) ∧ w ++ v = letters.flatten ∧ MonitorRun M M.init letters q)) ∧
      (g.size ≤ 2 ^ 31 → ∃ h, Graph.fromIstream out = .ok h ∧ ∀ w, h.accepts w = g.accepts w) := by
  have key : ∃ g, Graph.fromMonitor M n allFinal = .ok g ∧ g.WF ∧ ∀ w, ∃ b, g.accepts w = .ok b ∧ (b = true ↔
        ∃ (v : List Bool) (letters : List (List Bool)) (q : Nat), (allFinal = false → v = []) ∧
          (∀ a ∈ letters, a.length = n) ∧ w ++ v = letters.flatten ∧ MonitorRun M M.init letters q) := by
    cases allFinal with
    | true => simpa using C43_ltl_prefixes M n hM
    | false => simpa using C41_ltl_language M n hM
  obtain ⟨g, h1, h2, h3⟩ := key
  obtain ⟨out, h4⟩ : ∃ out, g.dump = .ok out := ⟨_, Graph.dump_ok h2⟩
  refine ⟨out, g, ?_, h4, h3, fun hsz => ?_⟩
  · unfold doLtl2spec
    rw [h1, Res.bind_ok, h4]
  · obtain ⟨out', e1, e2⟩ := C14_dump_parse g h2 hsz
    rw [h4] at e1
    cases e1
    exact ⟨_, e2, fun w => rfl⟩

example : doLtl2spec exMonitor 2 false =
    .ok (">0*\t1\t2\n1\t0\t0\n2\t3\t3\n3*\t4\t5\n4\t6\t0\n5\t6\t3\n6\t6\t6\n".toList) := by decide +kernel

/-- **C55.** If `Graph::from_ltl_formula` returns a graph, then no condition of the monitor is constantly false, and every proposition that a condition
(a reduced diagram) tests is one of p0, ..., p(n-1): with any other proposition the call fails instead of building a wrong automaton. -/
theorem C55_ltl_refuses (M : Monitor) (n : Nat) (allFinal : Bool) (g : Graph)
    (h : Graph.fromMonitor M n allFinal = .ok g ∨ Graph.fromMonitorReversed M n allFinal = .ok g) :
    ∀ es ∈ M.out, ∀ e ∈ es, e.1 ≠ .ff ∧ (Reduced e.1 → ∀ v, Mentions v e.1 → ∃ i < n, M.varOf i = some v) := by
  obtain ⟨t, ht⟩ : ∃ t, Ltl.nfaTuple M n allFinal = .ok t := by
    rcases h with h | h
    · obtain ⟨t, ht, _⟩ := Res.bind_eq_ok.1 h
      exact ⟨t, ht⟩
    · obtain ⟨t, ht, _⟩ := Res.bind_eq_ok.1 h
      exact ⟨t, ht⟩
  intro es hes e he
  obtain ⟨h1, h2⟩ := Ltl.nfaTuple_ok ht es hes e he
  refine ⟨fun h => ?_, fun hr v hv => ?_⟩
  · rw [h] at h1
    exact h1
  · obtain ⟨lo, hi, m1, m2⟩ := Ltl.mentions_node hr hv
    obtain ⟨i, hi⟩ := h2 v lo hi m1 m2
    obtain ⟨g1, g2⟩ := Ltl.lookup_known hi
    exact ⟨i, g1, g2⟩

/-- The monitor above mentions p1, so it is refused with only one proposition. -/
example : Graph.fromMonitor exMonitor 1 false = .error .outOfRange := by decide +kernel
example : Graph.fromMonitor { out := [[(.ff, 0)]], init := 0, varOf := fun _ => none } 1 false = .error .outOfRange := by decide +kernel
example : ∃ g, Graph.fromMonitor exMonitor 2 false = .ok g := let ⟨g, h, _⟩ := C41_ltl_language exMonitor 2 exMonitor_ok; ⟨g, h⟩

end Homfa
