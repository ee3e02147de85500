import Verif.Props.Minimize
import Verif.Proof.Dump
import Verif.Props.Queries
import Verif.Model.SpecTools
/-! Properties C14 - C18, C52: text formats and the conversion commands. -/

namespace Homfa
open Spec

/-- **C14.** `dump` succeeds on every well-formed graph, and parsing its output gives the same graph back (all fields; only
the depth cache is dropped), as long as state numbers fit in an `int`. -/
theorem C14_dump_parse (g : Graph) (hg : g.WF) (hsz : g.size ≤ 2 ^ 31) :
    ∃ text, g.dump = .ok text ∧ Graph.fromIstream text = .ok { g with statesAtDepth := [] } :=
  ⟨_, Graph.dump_ok hg, Graph.fromIstream_dump hg hsz⟩

example : exGraph.dump = .ok ">0\t0\t1\n1\t0\t2\n2*\t0\t2\n".toList := by decide

/-- **C15 (what the AT&T round trip does).** Importing the AT&T export of `g` accepts `w` iff `g` accepts `w` *when started
in state 0*. -/
theorem C15_att_roundtrip_from_state0 (g : Graph) (hg : g.WF) (hsz : g.size ≤ 2 ^ 31) :
    ∃ text h, g.dumpAtt = .ok text ∧ Graph.fromAttIstream text = .ok h ∧ h.WF ∧ ∀ w, h.accepts w = acceptsFrom g 0 w := by
  obtain ⟨h, h1, h2, h3, _⟩ := Graph.fromAtt_dump hg hsz
  refine ⟨_, h, Graph.dumpAtt_ok hg, h1, h2, fun w => ?_⟩
  have h0 : 0 < g.size := Nat.lt_of_le_of_lt (Nat.zero_le _) hg.init_lt
  rw [h2.accepts_eq, h3, acceptsFrom_eq hg h0]
  rfl

/-- The full claim of C15 for one graph: export then import preserves the language. -/
def AttRoundTrip (g : Graph) : Prop :=
  ∀ text h, g.dumpAtt = .ok text → Graph.fromAttIstream text = .ok h → ∀ w, h.accepts w = g.accepts w

/-- **C15 (partial).** The AT&T round trip preserves the language of every graph whose initial state is 0.
Missing: other initial states, for which the claim is false (next theorem). -/
theorem C15_att_roundtrip_partial (g : Graph) (hg : g.WF) (hsz : g.size ≤ 2 ^ 31) (hi : g.initialState = 0) :
    (∃ text h, g.dumpAtt = .ok text ∧ Graph.fromAttIstream text = .ok h) ∧ AttRoundTrip g := by
  obtain ⟨text, h, h1, h2, _, h3⟩ := C15_att_roundtrip_from_state0 g hg hsz
  refine ⟨⟨text, h, h1, h2⟩, fun text' h' e1 e2 w => ?_⟩
  rw [h1] at e1; injection e1 with e1; subst e1
  rw [h2] at e2; injection e2 with e2; subst e2
  rw [h3 w]
  unfold acceptsFrom Graph.accepts
  rw [hi]

example : exGraph.initialState = 0 ∧ exGraph.dumpAtt = .ok "0\t0\t0\n0\t1\t1\n1\t0\t0\n1\t2\t1\n2\t0\t0\n2\t2\t1\n2\n".toList := by
  decide

/-- Two states, initial state 1, final state 1, no edge between them. -/
def exInit1 : Graph := Graph.built 1 [1] [(0, 0, 0), (1, 1, 1)]

/-- **C15 (violation).** For the well-formed graph `exInit1` the AT&T round trip changes the language. -/
theorem C15_att_roundtrip_false : exInit1.WF ∧ ¬ AttRoundTrip exInit1 := by
  have hwf : exInit1.WF := by
    refine ⟨by decide, ?_, by decide, by decide⟩
    intro i t h
    match i with
    | 0 | 1 => simp [exInit1, Graph.built] at h; subst h; rfl
    | n + 2 => simp [exInit1, Graph.built] at h
  refine ⟨hwf, fun h => ?_⟩
  obtain ⟨text, k, h1, h2, _, h3⟩ := C15_att_roundtrip_from_state0 exInit1 hwf (by decide)
  have := h text k h1 h2 []
  rw [h3] at this
  exact absurd this (by decide)

/-- **C16 (meaning of a spec file).** If the lines of the text are a well-formed spec with at least one row, then
`from_istream` returns a graph accepting exactly the words accepted by the (possibly nondeterministic) automaton the rows
describe, unless the spec refers to a state without a row; then it throws `out_of_range`. -/
theorem C16_spec_meaning (text : List Char) (lines : List (List Char)) (rows : List Row) (ht : TextLines text lines)
    (hr : SpecRows 0 lines rows) (hne : rows ≠ []) :
    (¬ RefersOutside rows ∧ ∃ g, Graph.fromIstream text = .ok g ∧ g.WF ∧ ∀ w, ∃ b, g.accepts w = .ok b ∧
      (b = true ↔ NfaAccepts (InitialRow rows) (FinalRow rows) (rowStep rows) w)) ∨
    (RefersOutside rows ∧ Graph.fromIstream text = .error .outOfRange) := by
  rw [fromIstream_rows ht hr]
  rcases finishSpec_rows hne with ⟨g, h1, h2, _, h3, h4⟩ | ⟨h, h4⟩
  · exact .inl ⟨h4, g, h1, h2, fun w => ⟨_, h2.accepts_eq w, h3 w⟩⟩
  · exact .inr ⟨h4, h⟩

/-- a nondeterministic spec may refer to a missing state as long as no path leads there, a deterministic one may not -/
example : (do let g ← Graph.fromIstream ">0\t0\t0\n1*\t7\t_\n".toList; pure g.size) = .ok 1 ∧
    Graph.fromIstream ">0\t0\t0\n1*\t7\t1\n".toList = .error .outOfRange := by decide

/-- **C16 (no rows).** A text without spec lines is read as a graph without states, on which every run throws `out_of_range`. -/
theorem C16_no_rows (text : List Char) (lines : List (List Char)) (ht : TextLines text lines) (hl : ∀ l ∈ lines, NotSpecLine l) :
    ∃ g, Graph.fromIstream text = .ok g ∧ g.size = 0 ∧ ∀ w, g.accepts w = .error .outOfRange := by
  have hr : SpecRows 0 lines [] := by
    clear ht
    induction lines with
    | nil => exact .nil 0
    | cons l ls ih => exact .skip (hl l (by simp)) (ih fun x hx => hl x (by simp [hx]))
  refine ⟨Graph.built 0 [] [], ?_, rfl, ?_⟩
  · rw [fromIstream_rows ht hr]; decide
  · intro w
    cases w with
    | nil => decide
    | cons b w => cases b <;> rfl

/-- **C16 (rejection).** If the lines are not a well-formed spec, the program stops: it exits with an error message or throws
`out_of_range`. -/
theorem C16_bad_spec_rejected (text : List Char) (lines : List (List Char)) (ht : TextLines text lines)
    (hr : ¬ ∃ rows, SpecRows 0 lines rows) :
    Graph.fromIstream text = .error .die ∨ Graph.fromIstream text = .error .outOfRange := by
  unfold Graph.fromIstream
  rw [textLines_iff.1 ht]
  cases hl : lines.foldlM specLine { initSts := [], finalSts := [], delta := [], isDfa := true } with
  | ok p => exact absurd (specRows_of_fold hl) hr
  | error e =>
    rw [Res.bind_err]
    rcases specLines_err hl with rfl | rfl
    · exact .inl rfl
    · exact .inr rfl

/-- **C16 (skipped lines).** A line that is not a spec line can be removed anywhere in the file without any effect. -/
theorem C16_skip_line (text text' : List Char) (a b : List (List Char)) (l : List Char) (hl : NotSpecLine l)
    (ht : TextLines text (a ++ l :: b)) (ht' : TextLines text' (a ++ b)) :
    Graph.fromIstream text = Graph.fromIstream text' := by
  unfold Graph.fromIstream
  rw [textLines_iff.1 ht, textLines_iff.1 ht']
  congr 1
  rw [List.foldlM_append, List.foldlM_append]
  congr 1
  funext p
  rw [List.foldlM_cons, specLine_skip hl, Res.bind_ok]

/-- **C16 (numbering).** If the first lines are a well-formed spec with `n` rows and the next line is a spec line with
readable target lists but a state number other than `n` (and fitting an `int`), the program exits with an error. -/
theorem C16_wrong_number_dies (text : List Char) (a b : List (List Char)) (l : List Char) (rows : List Row)
    (ht : TextLines text (a ++ l :: b)) (hr : SpecRows 0 a rows) (ini fin : Bool) (num t0 t1 : List Char)
    (hl : SpecLine l ini num fin t0 t1) (on0 on1 : List Nat) (h0 : Targets t0 on0) (h1 : Targets t1 on1)
    (hv : value num ≠ rows.length) (hi : value num < 2 ^ 31) : Graph.fromIstream text = .error .die := by
  unfold Graph.fromIstream
  obtain ⟨hlen, _⟩ := rows_state rows
  have hd := hl
  obtain ⟨_, _, _, hnum, ht0, ht1, _⟩ := hd
  rw [textLines_iff.1 ht, List.foldlM_append,
    show ({ initSts := [], finalSts := [], delta := [], isDfa := true } : SpecSt) = emptySpec from rfl, specRows_fold hr rfl,
    Res.bind_ok, List.foldlM_cons]
  unfold specLine
  rw [matchSpecLine_iff.2 hl]
  dsimp only
  rw [(loadStates_iff ht0).2 h0, Res.bind_ok, (loadStates_iff ht1).2 h1, Res.bind_ok, stoi_digits hnum, if_pos hi,
    Res.bind_ok, if_pos (by rw [hlen]; exact fun e => hv e.symm)]
  rfl

/-- **C16 (empty items).** If the first lines are a well-formed spec and the next line is a spec line with an empty item in one of its lists
(before any number that does not fit an `int`), the program exits with an error. -/
theorem C16_empty_item_dies (text : List Char) (a b : List (List Char)) (l : List Char) (rows : List Row)
    (ht : TextLines text (a ++ l :: b)) (hr : SpecRows 0 a rows) (ini fin : Bool) (num t0 t1 : List Char)
    (hl : SpecLine l ini num fin t0 t1) (he : EmptyItem t0 ∨ (∃ on0, Targets t0 on0) ∧ EmptyItem t1) :
    Graph.fromIstream text = .error .die := by
  unfold Graph.fromIstream
  have hd := hl
  obtain ⟨_, _, _, hnum, ht0, ht1, _⟩ := hd
  rw [textLines_iff.1 ht, List.foldlM_append,
    show ({ initSts := [], finalSts := [], delta := [], isDfa := true } : SpecSt) = emptySpec from rfl, specRows_fold hr rfl,
    Res.bind_ok, List.foldlM_cons]
  unfold specLine
  rw [matchSpecLine_iff.2 hl]
  dsimp only
  rcases he with h | ⟨⟨on0, h0⟩, h⟩
  · rw [loadStates_emptyItem h]; rfl
  · rw [(loadStates_iff ht0).2 h0, Res.bind_ok, loadStates_emptyItem h]; rfl

/-- A spec with a comment line, two initial states and a nondeterministic row. -/
def exSpec : List Char := "# comment\n>0\t0\t0,1\n>1*  _ 1,\n".toList

/-- Non-vacuity of C16: `exSpec` is a well-formed spec with two rows. -/
theorem exSpec_rows : TextLines exSpec ["# comment".toList, ">0\t0\t0,1".toList, ">1*  _ 1,".toList] ∧
    SpecRows 0 ["# comment".toList, ">0\t0\t0,1".toList, ">1*  _ 1,".toList]
      [⟨true, false, [0], [0, 1]⟩, ⟨true, true, [], [1]⟩] := by
  refine ⟨textLines_iff.2 (by decide), ?_⟩
  refine .skip (matchSpecLine_none.1 (by decide)) (.row (matchSpecLine_iff.1 (by decide : matchSpecLine _ = some
    (true, "0".toList, false, "0".toList, "0,1".toList))) (by decide) (by decide) ?_ ?_ (.row (matchSpecLine_iff.1
    (by decide : matchSpecLine _ = some (true, "1".toList, true, "_".toList, "1,".toList))) (by decide) (by decide) ?_ ?_ (.nil _)))
  · exact (loadStates_iff (isTargetField_iff.1 (by decide))).1 (by decide)
  · exact (loadStates_iff (isTargetField_iff.1 (by decide))).1 (by decide)
  · exact (loadStates_iff (isTargetField_iff.1 (by decide))).1 (by decide)
  · exact (loadStates_iff (isTargetField_iff.1 (by decide))).1 (by decide)

/-- what the program does on bad numbering, empty items and numbers beyond `int` -/
example : Graph.fromIstream "1\t0\t0\n".toList = .error .die ∧ Graph.fromIstream "0\t0,,0\t0\n".toList = .error .die ∧
    Graph.fromIstream "0\t2147483648\t0\n".toList = .error .outOfRange ∧
    Graph.fromIstream "0\t1\t0\n".toList = .error .outOfRange := by decide

/-- Every query on a state of the graph succeeds and stays inside the graph, hence so does every run. -/
def Complete (g : Graph) : Prop :=
  g.initialState < g.size ∧
  (∀ q < g.size, (∃ f, g.isFinalState q = .ok f) ∧
    ∀ b, (∃ r, g.nextState q b = .ok r ∧ r < g.size) ∧ ∃ l, g.prevStates q b = .ok l ∧ ∀ p ∈ l, p < g.size) ∧
  (∀ q < g.size, ∀ w, ∃ r, g.runWord q w = .ok r ∧ r < g.size) ∧
  ∀ w, ∃ b, g.accepts w = .ok b

theorem complete_of_wf {g : Graph} (hg : g.WF) : Complete g := by
  refine ⟨hg.init_lt, fun q hq => ⟨⟨_, hg.isFinalState_ok hq⟩, fun b => ⟨⟨_, Graph.WF.nextState_ok hq b, hg.nx_lt hq b⟩,
    ⟨_, hg.prevStates_ok hq b, fun p hp => ?_⟩⟩⟩, fun q hq w => ⟨_, hg.run_ok hq w⟩, fun w => ⟨_, hg.accepts_eq w⟩⟩
  simpa using (List.mem_filter.1 hp).1

theorem wf_of_fromIstream {text : List Char} {g : Graph} (h : Graph.fromIstream text = .ok g) (hs : 0 < g.size) : g.WF := by
  unfold Graph.fromIstream at h
  obtain ⟨p, hp, h⟩ := Res.bind_eq_ok.1 h
  obtain ⟨rows, hr⟩ := specRows_of_fold hp
  rw [specRows_fold hr rfl] at hp
  rw [show ({ initSts := [], finalSts := [], delta := [], isDfa := true } : SpecSt) = emptySpec from rfl] at hp
  injection hp with hp; subst hp
  by_cases hne : rows = []
  · subst hne
    have : finishSpec (([] : List Row).foldl addRow emptySpec) = .ok (Graph.built 0 [] []) := by decide
    rw [this] at h
    injection h with h; subst h
    simp [Graph.built, Graph.size] at hs
  · rcases finishSpec_rows hne with ⟨g', h1, h2, _⟩ | ⟨h1, _⟩
    · rw [h1] at h; injection h with h; subst h; exact h2
    · rw [h1] at h; simp at h

/-- **C17.** Every graph the library builds answers all queries: the parsers (the spec parser if it returns a non-empty
graph), the subset construction (its `std::set` of initial states is sorted), and the graph operations. -/
theorem C17_built_graphs_complete :
    (∀ text g, Graph.fromIstream text = .ok g → 0 < g.size → g.WF) ∧
    (∀ text g, Graph.fromAttIstream text = .ok g → g.WF) ∧
    (∀ init final dn g, SSorted init → Graph.fromNfa init final dn = .ok g → g.WF) ∧
    (∀ g : Graph, g.WF → ∃ r, g.reversed = .ok r ∧ r.WF) ∧
    (∀ g : Graph, g.WF → ∃ r, g.minimized = .ok r ∧ r.WF) ∧
    (∀ g : Graph, g.WF → ∃ r, g.removedUnreachable = .ok r ∧ r.WF) ∧
    (∀ g : Graph, g.WF → ∃ r, g.groupedNondistinguishable = .ok r ∧ r.WF) ∧
    (∀ g : Graph, g.WF → ∃ r, g.negated = .ok r ∧ r.WF) ∧
    (∀ g : Graph, g.WF → ∀ d, ∃ r, g.reserveStatesAtDepth d = .ok r ∧ r.WF) ∧
    (∀ g : Graph, g.WF → Complete g) := by
  refine ⟨fun text g => wf_of_fromIstream, ?_, ?_, ?_, ?_, ?_, ?_, ?_, ?_, fun g => complete_of_wf⟩
  · intro text g h
    have h' := h
    unfold Graph.fromAttIstream at h
    obtain ⟨p, hp, h⟩ := Res.bind_eq_ok.1 h
    exact (FromNfa.fromNfa_good (by simp) h).1
  · intro init final dn g hi h
    exact (FromNfa.fromNfa_good hi h).1
  · intro g hg
    obtain ⟨r, h1, h2, _⟩ := C03_reversed_language g hg
    exact ⟨r, h1, h2⟩
  · intro g hg
    obtain ⟨r, h1, h2, _⟩ := C04_minimized_language g hg
    exact ⟨r, h1, h2⟩
  · intro g hg
    obtain ⟨r, h1, h2, _⟩ := C06_removed_unreachable g hg
    exact ⟨r, h1, h2⟩
  · intro g hg
    obtain ⟨r, h1, h2, _⟩ := C07_grouped g hg
    exact ⟨r, h1, h2⟩
  · intro g hg
    obtain ⟨r, h1, h2, _⟩ := Graph.negated_spec hg
    exact ⟨r, h1, h2⟩
  · intro g hg d
    exact ⟨_, Graph.reserve_ok hg d, hg.withDepth _⟩

/-- Non-vacuity: a parsed spec, and the degenerate case C17 has to exclude (a text without spec lines gives an empty graph
whose initial state is out of range). -/
example : (do let g ← Graph.fromIstream exSpec; pure g.size) = .ok 2 ∧
    (do let g ← Graph.fromIstream "no spec line\n".toList; g.accepts []) = .error .outOfRange := by decide

/-- **C18.** On a spec that parses to a non-empty graph `g`, `spec2spec` succeeds for all flags and prints a spec of a graph
`h` that accepts `w` iff `g`, or its complement if `negated`, accepts `w`, or the reverse of `w` if `reversed`; with
`minimized` no DFA for that language is smaller; re-parsing the output gives `h` (if its size fits an `int`). -/
theorem C18_spec2spec (spec : List Char) (g : Graph) (hg : Graph.fromIstream spec = .ok g) (hs : 0 < g.size)
    (minimized reversed negated : Bool) :
    ∃ (out : List Char) (h : Graph), doSpec2spec spec minimized reversed negated = .ok out ∧ h.dump = .ok out ∧ h.WF ∧
      (∀ w, ∃ b, g.accepts (if reversed then w.reverse else w) = .ok b ∧ h.accepts w = .ok (if negated then !b else b)) ∧
      (minimized = true → ∀ n (d : Dfa (Fin n)), (∀ w, h.accepts w = .ok (d.accepts w)) → h.size ≤ n) ∧
      (h.size ≤ 2 ^ 31 → Graph.fromIstream out = .ok { h with statesAtDepth := [] }) := by
  have hwf := wf_of_fromIstream hg hs
  unfold doSpec2spec
  rw [hg, Res.bind_ok]
  obtain ⟨g1, e1, w1, l1⟩ : ∃ g1, (if negated then g.negated else pure g) = .ok g1 ∧ g1.WF ∧
      ∀ w, ∃ b, g.accepts w = .ok b ∧ g1.accepts w = .ok (if negated then !b else b) := by
    cases negated
    · exact ⟨g, rfl, hwf, fun w => ⟨_, hwf.accepts_eq w, hwf.accepts_eq w⟩⟩
    · obtain ⟨n, h1, h2, _⟩ := Graph.negated_spec hwf
      refine ⟨n, h1, h2, fun w => ?_⟩
      obtain ⟨n', h1', h2', h3⟩ := C09_negated_language g hwf
      rw [h1] at h1'; injection h1' with h1'; subst h1'
      exact h3 w
  rw [e1, Res.bind_ok]
  obtain ⟨g2, e2, w2, l2⟩ : ∃ g2, (if reversed then g1.reversed else pure g1) = .ok g2 ∧ g2.WF ∧
      ∀ w, g2.accepts w = g1.accepts (if reversed then w.reverse else w) := by
    cases reversed
    · exact ⟨g1, rfl, w1, fun w => rfl⟩
    · exact C03_reversed_language g1 w1
  rw [e2, Res.bind_ok]
  obtain ⟨g3, e3, w3, l3, m3⟩ : ∃ g3, (if minimized then g2.minimized else pure g2) = .ok g3 ∧ g3.WF ∧
      (∀ w, g3.accepts w = g2.accepts w) ∧
      (minimized = true → ∀ n (d : Dfa (Fin n)), (∀ w, g3.accepts w = .ok (d.accepts w)) → g3.size ≤ n) := by
    cases minimized
    · exact ⟨g2, rfl, w2, fun w => rfl, by simp⟩
    · obtain ⟨m, h1, h2, h3⟩ := C04_minimized_language g2 w2
      exact ⟨m, h1, h2, h3, fun _ n d hd => C05_minimized_minimal g2 w2 m h1 n d (fun w => by rw [← h3 w]; exact hd w)⟩
  rw [e3, Res.bind_ok]
  refine ⟨_, g3, Graph.dump_ok w3, Graph.dump_ok w3, w3, fun w => ?_, m3, fun hsz => Graph.fromIstream_dump w3 hsz⟩
  obtain ⟨b, h1, h2⟩ := l1 (if reversed then w.reverse else w)
  exact ⟨b, h1, by rw [l3, l2, h2]⟩

example : doSpec2spec exSpec true true true = .ok ">0\t1\t2\n1*\t1\t1\n2\t2\t2\n".toList := by decide

/-- **C52 (meaning of an AT&T file).** If every line is an edge or a final state, `from_att_istream` returns a graph for the
automaton with initial state 0 and exactly these edges and final states - or throws `out_of_range`, exactly when a state
reachable from 0 has a larger number than every state with an outgoing edge. -/
theorem C52_att_meaning (text : List Char) (lines : List (List Char)) (items : List AttItem) (ht : TextLines text lines)
    (hi : List.Forall₂ AttLine lines items) :
    ((∃ g, Graph.fromAttIstream text = .ok g ∧ g.WF ∧ ∀ w, ∃ b, g.accepts w = .ok b ∧
        (b = true ↔ NfaAccepts (· = 0) (fun q => AttItem.final q ∈ items) (attStep items) w)) ∨
      Graph.fromAttIstream text = .error .outOfRange) ∧
    (Graph.fromAttIstream text = .error .outOfRange ↔
      ∃ w q, Path (attStep items) 0 w q ∧ ∀ s d b, AttItem.edge s d b ∈ items → s < q) := by
  rw [← textLines_iff.1 ht] at hi
  rcases fromAtt_items hi with ⟨g, h1, h2, h3, h4⟩ | ⟨h1, h2⟩
  · refine ⟨.inl ⟨g, h1, h2, fun w => ⟨_, h2.accepts_eq w, h3 w⟩⟩, ?_⟩
    rw [h1]
    constructor
    · intro h; simp at h
    · rintro ⟨w, q, hp, hlt⟩
      obtain ⟨s, d, b, he, hle⟩ := h4 w q hp
      have := hlt s d b he
      omega
  · exact ⟨.inr h1, fun _ => h2, fun _ => h1⟩

/-- **C52 (rejection).** Any other line makes the program stop. -/
theorem C52_bad_att_rejected (text : List Char) (lines : List (List Char)) (ht : TextLines text lines)
    (hi : ¬ ∃ items, List.Forall₂ AttLine lines items) :
    Graph.fromAttIstream text = .error .die ∨ Graph.fromAttIstream text = .error .outOfRange := by
  unfold Graph.fromAttIstream
  rw [textLines_iff.1 ht]
  cases hl : lines.foldlM attLine ([], []) with
  | ok p => exact absurd (attLines_inv hl) hi
  | error e =>
    rw [Res.bind_err]
    obtain ⟨_, _, _, h⟩ := foldlM_err hl
    rcases attLine_err h with rfl | rfl
    · exact .inl rfl
    · exact .inr rfl

/-- Both outcomes: a file whose final state has no outgoing edge and the largest number is not importable. -/
example : (do let g ← Graph.fromAttIstream "0\t1\t0\n1\t0\t1\n1\n".toList; g.accepts [false, true, false]) = .ok true ∧
    Graph.fromAttIstream "0\t1\t0\n1\n".toList = .error .outOfRange := by decide

end Homfa
