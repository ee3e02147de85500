import Verif.Proof.Picture
import Verif.Props.CanonText
/-!
# C117: the picture of a formula

The README suggests `ltl2spec FML AP | spec2spec --minimized | spec2dot` for looking at what will be monitored.  A drawing can be read in one way only
(`DotDrawing.unique`); read as a person reads it (`DotAccepts`) it accepts exactly the records that the formula allows, no correct picture has fewer
circles, and two formulas have the same picture exactly when they have the same beginnings.
-/

namespace Homfa
open Spec

variable {N n l : Nat}

theorem spec2dot_stmts {spec : List Char} {g : Graph} (hg : Graph.fromIstream spec = .ok g) (wg : g.WF) :
    ∃ text, doSpec2dot spec = .ok text ∧ DotDrawing text g.dotStmts := by
  obtain ⟨text, h1, h2⟩ := Graph.dumpDot_ok wg
  exact ⟨text, by unfold doSpec2dot; rw [hg, Res.bind_ok, h1], h2⟩

/-- **C117, one picture.** For every specification that can be read `spec2dot` prints a drawing, and however one reads the printed text as a drawing, it accepts
exactly the words that the automaton accepts and has one circle for each state. -/
theorem C117_drawing {spec : List Char} {g : Graph} (hg : Graph.fromIstream spec = .ok g) (hs : 0 < g.size) :
    ∃ text, doSpec2dot spec = .ok text ∧ (∃ stmts, DotDrawing text stmts) ∧
      ∀ stmts, DotDrawing text stmts → (∀ w, DotAccepts stmts w ↔ g.accepts w = .ok true) ∧ dotStates stmts = g.allStates.length := by
  have wg := wf_of_fromIstream hg hs
  obtain ⟨text, h1, h2⟩ := spec2dot_stmts hg wg
  refine ⟨text, h1, ⟨_, h2⟩, fun stmts h => ?_⟩
  rw [h.unique h2]
  refine ⟨fun w => ?_, ?_⟩
  · rw [Graph.dotAccepts_iff wg, wg.accepts_eq]
    simp
  · rw [Graph.dotStates_eq]
    simp [Graph.allStates]

theorem back_of_dump {g : Graph} (wg : g.WF) (hd : g.statesAtDepth = []) (hsz : g.size ≤ 2 ^ 31) {out : List Char} (h : g.dump = .ok out) :
    Graph.fromIstream out = .ok g := by
  obtain ⟨t, h1, h2⟩ := C14_dump_parse g wg hsz
  rw [h] at h1
  cases h1
  rw [h2]
  cases g
  simp_all

/-- **C117, two pictures.** The pictures of two specifications that can be read are the same text if and only if plain `spec2spec` prints the two specifications as
the same text (if this fits an `int`): the picture shows all that there is. -/
theorem C117_same_picture {spec spec' : List Char} {g g' : Graph} (hg : Graph.fromIstream spec = .ok g) (hg' : Graph.fromIstream spec' = .ok g')
    (hs : 0 < g.size) (hs' : 0 < g'.size) :
    ∃ text text' out out', doSpec2dot spec = .ok text ∧ doSpec2dot spec' = .ok text' ∧
      doSpec2spec spec false false false = .ok out ∧ doSpec2spec spec' false false false = .ok out' ∧
      (text = text' → out = out') ∧ (out = out' → out.length ≤ 2 ^ 31 → text = text') := by
  have wg := wf_of_fromIstream hg hs
  have wg' := wf_of_fromIstream hg' hs'
  obtain ⟨text, a1, a2⟩ := spec2dot_stmts hg wg
  obtain ⟨text', b1, b2⟩ := spec2dot_stmts hg' wg'
  have plain : ∀ {spec : List Char} {g : Graph}, Graph.fromIstream spec = .ok g → doSpec2spec spec false false false = g.dump := by
    intro spec g hg
    unfold doSpec2spec
    rw [hg, Res.bind_ok, if_neg (by simp), Res.pure_eq, Res.bind_ok, if_neg (by simp), Res.pure_eq, Res.bind_ok, if_neg (by simp), Res.pure_eq, Res.bind_ok]
  refine ⟨text, text', _, _, a1, b1, (plain hg).trans (Graph.dump_ok wg), (plain hg').trans (Graph.dump_ok wg'), ?_, ?_⟩
  · rintro rfl
    have := Graph.dump_of_dotStmts wg wg' (a2.unique b2)
    rw [Graph.dump_ok wg, Graph.dump_ok wg'] at this
    injection this
  · intro h hl
    obtain ⟨t, c1, c2⟩ := C14_dump_parse g wg (Nat.le_trans (Graph.length_dump wg (Graph.dump_ok wg)) hl)
    obtain ⟨t', d1, d2⟩ := C14_dump_parse g' wg' (Nat.le_trans (Graph.length_dump wg' (Graph.dump_ok wg')) (h ▸ hl))
    rw [Graph.dump_ok wg] at c1
    rw [Graph.dump_ok wg', ← h] at d1
    cases c1; cases d1
    rw [c2] at d2
    injection d2 with d2
    unfold doSpec2dot at a1 b1
    rw [hg, Res.bind_ok] at a1
    rw [hg', Res.bind_ok] at b1
    have : g.dumpDot = g'.dumpDot :=
      show ({ g with statesAtDepth := [] } : Graph).dumpDot = ({ g' with statesAtDepth := [] } : Graph).dumpDot by rw [d2]
    rw [this, b1] at a1
    injection a1 with a1
    exact a1.symm

theorem minimized_size_le {g m : Graph} (hg : g.WF) (hm : g.minimized = .ok m) : m.size ≤ g.size := by
  let d : Dfa (Fin g.size) := ⟨⟨g.init, hg.init_lt⟩, fun q b => ⟨g.nx q b, hg.nx_lt q.2 b⟩, fun q => g.fin q⟩
  refine C05_minimized_minimal g hg m hm g.size d fun w => ?_
  rw [hg.accepts_eq]
  have : ∀ (w : List Bool) (q : Fin g.size), (d.run q w).1 = w.foldl g.nx q.1 := by
    intro w
    induction w with
    | nil => intro q; rfl
    | cons b w ih => intro q; exact ih (d.next q b)
  show _ = Except.ok (g.fin (d.run d.start w).1)
  rw [this]
  rfl

theorem formulaWord_iff {M : Monitor} {ap : Nat} {φ : Formula} (hM : MonitorFor M ap φ) {allFinal : Bool} {w : List Bool} :
    (∃ (v : List Bool) (letters : List (List Bool)) (q : Nat), (allFinal = false → v = []) ∧ (∀ a ∈ letters, a.length = ap) ∧ w ++ v = letters.flatten ∧
      MonitorRun M M.init letters q) ↔ FormulaWord φ ap allFinal w := by
  constructor
  · rintro ⟨v, letters, q, h1, h2, h3, h4⟩
    refine ⟨v, letters, h1, h2, h3, ?_⟩
    by_cases hne : letters = []
    · exact Or.inl hne
    · exact Or.inr ((hM.reads letters hne h2).1 ⟨q, h4⟩)
  · rintro ⟨v, letters, h1, h2, h3, h4⟩
    by_cases hne : letters = []
    · subst hne
      exact ⟨v, [], M.init, h1, h2, h3, .nil _⟩
    · obtain ⟨q, hq⟩ := (hM.reads letters hne h2).2 (h4.resolve_left hne)
      exact ⟨v, letters, q, h1, h2, h3, hq⟩

/-- What is drawn for a formula. -/
theorem ltl_stmts {M : Monitor} {ap : Nat} {φ : Formula} (hM : MonitorFor M ap φ) {allFinal : Bool} {spec : List Char}
    (hspec : doLtl2spec M ap allFinal = .ok spec) (hlen : spec.length ≤ 2 ^ 31) :
    ∃ (m : Graph) (min text : List Char), doSpec2spec spec true false false = .ok min ∧ doSpec2dot min = .ok text ∧ DotDrawing text m.dotStmts ∧ m.WF ∧ m.dump = .ok min ∧
      (∀ w, m.dfa.accepts w = true ↔ FormulaWord φ ap allFinal w) ∧
      ∀ k (d : Dfa (Fin k)), (∀ w, d.accepts w = true ↔ FormulaWord φ ap allFinal w) → m.size ≤ k := by
  obtain ⟨g, a1, a2, a3⟩ := ltl_graph hM.toMonitorOk hspec hlen
  obtain ⟨m, b1, b2, b3, b4, b5, b6⟩ := Graph.minimized_good a2
  have hsz : g.size ≤ 2 ^ 31 := by
    unfold doLtl2spec at hspec
    obtain ⟨k, k1, k2⟩ := Res.bind_eq_ok.1 hspec
    have hw : k.WF := by
      unfold Graph.fromMonitor at k1
      obtain ⟨F, D, h1, _⟩ := Ltl.nfaTuple_lang' hM.toMonitorOk allFinal
      rw [h1, Res.bind_ok] at k1
      exact (FromNfa.fromNfa_good (List.pairwise_singleton _ _) k1).1
    have hk := Nat.le_trans (Graph.length_dump hw k2) hlen
    obtain ⟨t, e1, e2⟩ := C14_dump_parse k hw hk
    rw [k2] at e1
    cases e1
    rw [a1] at e2
    cases e2
    exact hk
  have hd := Graph.dump_ok b2
  have hb := back_of_dump b2 b3 (Nat.le_trans (minimized_size_le a2 b1) hsz) hd
  obtain ⟨text, c1, c2⟩ := spec2dot_stmts hb b2
  have hlang : ∀ w, m.dfa.accepts w = true ↔ FormulaWord φ ap allFinal w := by
    intro w
    obtain ⟨b, h1, h2⟩ := a3 w
    rw [a2.accepts_eq] at h1
    injection h1 with h1
    rw [b4, h1, h2, formulaWord_iff hM]
  refine ⟨m, _, text, ?_, c1, c2, b2, hd, hlang, fun k d hd => Graph.minimal_of_trim b5 b6 d fun w => ?_⟩
  · unfold doSpec2spec
    rw [a1, Res.bind_ok, if_neg (by simp), Res.pure_eq, Res.bind_ok, if_neg (by simp), Res.pure_eq, Res.bind_ok, if_pos rfl, b1, Res.bind_ok]
    exact hd
  · rw [Bool.eq_iff_iff, hlang, hd]

/-- **C117, the picture of a formula.** For every formula whose specification fits an `int`, minimizing and drawing it succeeds, and however one reads the text as a
drawing, it accepts exactly the records of steps that begin a behaviour satisfying the formula, and no deterministic automaton with fewer states than it has
circles does. -/
theorem C117_formula {M : Monitor} {ap : Nat} {φ : Formula} (hM : MonitorFor M ap φ) {allFinal : Bool} {spec : List Char}
    (hspec : doLtl2spec M ap allFinal = .ok spec) (hlen : spec.length ≤ 2 ^ 31) :
    ∃ min text, doSpec2spec spec true false false = .ok min ∧ doSpec2dot min = .ok text ∧ (∃ stmts, DotDrawing text stmts) ∧
      ∀ stmts, DotDrawing text stmts → (∀ w, DotAccepts stmts w ↔ FormulaWord φ ap allFinal w) ∧
        ∀ k (d : Dfa (Fin k)), (∀ w, d.accepts w = true ↔ FormulaWord φ ap allFinal w) → dotStates stmts ≤ k := by
  obtain ⟨m, min, text, h1, h2, h3, h4, _, h6, h7⟩ := ltl_stmts hM hspec hlen
  refine ⟨min, text, h1, h2, ⟨_, h3⟩, fun stmts h => ?_⟩
  rw [h.unique h3]
  exact ⟨fun w => (Graph.dotAccepts_iff h4 w).trans (h6 w), fun k d hd => by rw [Graph.dotStates_eq]; exact h7 k d hd⟩

/-- **C117, pictures of two formulas.** Two formulas have the same picture if they have the same beginnings; and if they have the same picture they have the same
beginnings (if the minimized text fits an `int`). -/
theorem C117_formulas {M M' : Monitor} {ap : Nat} (hap : 0 < ap) {φ ψ : Formula} (hM : MonitorFor M ap φ) (hM' : MonitorFor M' ap ψ) {allFinal : Bool}
    {spec spec' : List Char} (hspec : doLtl2spec M ap allFinal = .ok spec) (hspec' : doLtl2spec M' ap allFinal = .ok spec') (hlen : spec.length ≤ 2 ^ 31)
    (hlen' : spec'.length ≤ 2 ^ 31) :
    ∃ min min' text text', doSpec2spec spec true false false = .ok min ∧ doSpec2spec spec' true false false = .ok min' ∧
      doSpec2dot min = .ok text ∧ doSpec2dot min' = .ok text' ∧
      (SameBeginnings ap φ ψ → text = text') ∧ (text = text' → min.length ≤ 2 ^ 31 → SameBeginnings ap φ ψ) := by
  obtain ⟨m, min, text, a1, a2, a3, a4, a5, _⟩ := ltl_stmts hM hspec hlen
  obtain ⟨m', min', text', b1, b2, b3, b4, b5, _⟩ := ltl_stmts hM' hspec' hlen'
  obtain ⟨out, out', c1, c2, c3, c4⟩ := C115_ltl hap hM hM' hspec hspec' hlen hlen'
  rw [a1] at c1
  rw [b1] at c2
  cases c1; cases c2
  refine ⟨min, min', text, text', a1, b1, a2, b2, fun h => ?_, fun h hl => c4 ?_ hl⟩
  · rw [c3 h, b2] at a2
    injection a2 with a2
    exact a2.symm
  · subst h
    have := Graph.dump_of_dotStmts a4 b4 (a3.unique b3)
    rw [a5, b5] at this
    injection this

namespace Cli

variable {L : Lib N n l}

theorem prints_minimized {fs : Files} {spec out : List Char} (ho : doSpec2spec spec true false false = .ok out) :
    JustPrints L spec fs ["spec2spec", "--minimized"] out := by
  intro r
  have a := run_spec2spec (L := L) (stdin := spec) (fs := fs) (flags := ["--minimized"]) (by simp) (F := none) nofun (r := r)
  rw [show fileOrStdin readSpec fs spec none = .ok spec from rfl, Res.bind_ok] at a
  rw [show decide ("--minimized" ∈ ["--minimized"]) = true by decide, show decide ("--reversed" ∈ ["--minimized"]) = false by decide,
    show decide ("--negated" ∈ ["--minimized"]) = false by decide, ho] at a
  exact a

theorem prints_dot {fs : Files} {spec out : List Char} (ho : doSpec2dot spec = .ok out) : JustPrints L spec fs ["spec2dot"] out := by
  intro r
  have a := run_spec2dot (L := L) (stdin := spec) (fs := fs) (F := none) nofun (r := r)
  rw [show fileOrStdin readSpec fs spec none = .ok spec from rfl, Res.bind_ok, ho] at a
  exact a

/-- **C117, on the command line.** `homfa ltl2spec FML AP | homfa spec2spec --minimized | homfa spec2dot`: once the first command has printed a text that fits
an `int`, the two others succeed and print the picture of `C117_formula`. -/
theorem C117_pipeline {fml : String} {φ : Formula} {ap : Nat} (hap64 : ap < 2 ^ 64) {M : Monitor} (hM : MonitorFor M ap φ) (hw : Word fml)
    (hm : L.monitor fml ap = .ok M) (flag : List String) (hflag : flag = [] ∨ flag = ["--make-all-live-states-final"])
    {fs fs1 : Files} {stdin spec : List Char} (hspec : RunHomfa L stdin fs (["ltl2spec"] ++ flag ++ [fml, toString ap]) (.ok (fs1, spec)))
    (hsize : spec.length ≤ 2 ^ 31) :
    ∃ min text, JustPrints L spec fs ["spec2spec", "--minimized"] min ∧ JustPrints L min fs ["spec2dot"] text ∧ (∃ stmts, DotDrawing text stmts) ∧
      ∀ stmts, DotDrawing text stmts → (∀ w, DotAccepts stmts w ↔ FormulaWord φ ap (decide (flag ≠ [])) w) ∧
        ∀ k (d : Dfa (Fin k)), (∀ w, d.accepts w = true ↔ FormulaWord φ ap (decide (flag ≠ [])) w) → dotStates stmts ≤ k := by
  have e1 := ok_of_map ((run_ltl2spec hw hap64 hm flag hflag).1 hspec)
  obtain ⟨min, text, h1, h2, h3, h4⟩ := C117_formula hM e1 hsize
  exact ⟨min, text, prints_minimized h1, prints_dot h2, h3, h4⟩

end Cli

/-! ## The hypotheses are met -/

open Cli

/-- the picture of the formula of C67 over two propositions -/
example : ∃ min text stmts, doSpec2spec exLtlSpec true false false = .ok min ∧ doSpec2dot min = .ok text ∧ DotDrawing text stmts ∧
    (∀ w, DotAccepts stmts w ↔ FormulaWord exFormula 2 false w) := by
  obtain ⟨min, text, h1, h2, ⟨stmts, h3⟩, h4⟩ := C117_formula exMonitor_for exLtlSpec_printed exLtlSpec_length
  exact ⟨min, text, stmts, h1, h2, h3, (h4 stmts h3).1⟩

/-- two different specifications with one picture -/
example : ∃ min min' text, exLtlSpec ≠ exLtlSpec3 ∧ doSpec2spec exLtlSpec true false false = .ok min ∧ doSpec2spec exLtlSpec3 true false false = .ok min' ∧
    doSpec2dot min = .ok text ∧ doSpec2dot min' = .ok text := by
  obtain ⟨min, min', text, text', h1, h2, h3, h4, h5, _⟩ := C117_formulas (by omega) exMonitor_for exMonitor3_for exLtlSpec_printed exLtlSpec3_printed
    exLtlSpec_length exLtlSpec3_length
  cases h5 exFormula2_beginnings
  exact ⟨min, min', text, by decide +kernel, h1, h2, h3, h4⟩

/-- a picture as it is printed, and what it says of two words -/
example : ∃ text stmts, doSpec2dot ">0\t0\t1\n1*\t1\t1\n".toList = .ok text ∧ DotDrawing text stmts ∧ DotAccepts stmts [false, true] ∧
    ¬ DotAccepts stmts [false, false] ∧ dotStates stmts = 2 := by
  obtain ⟨g, hg, hs⟩ : ∃ g, Graph.fromIstream ">0\t0\t1\n1*\t1\t1\n".toList = .ok g ∧ 0 < g.size := ⟨_, rfl, by decide⟩
  obtain ⟨text, h1, ⟨stmts, h2⟩, h3⟩ := C117_drawing hg hs
  obtain ⟨h4, h5⟩ := h3 stmts h2
  have e : (do let g ← Graph.fromIstream ">0\t0\t1\n1*\t1\t1\n".toList; g.accepts [false, true]) = .ok true ∧
    (do let g ← Graph.fromIstream ">0\t0\t1\n1*\t1\t1\n".toList; g.accepts [false, false]) = .ok false ∧
    (do let g ← Graph.fromIstream ">0\t0\t1\n1*\t1\t1\n".toList; (.ok g.allStates.length : Res Nat)) = .ok 2 := by decide
  rw [hg, Res.bind_ok, Res.bind_ok, Res.bind_ok] at e
  obtain ⟨e1, e2, e3⟩ := e
  injection e3 with e3
  refine ⟨text, stmts, h1, h2, (h4 _).2 e1, fun h => ?_, h5.trans e3⟩
  have := (h4 _).1 h
  rw [e2] at this
  injection this with this
  cases this

/-- two specifications with different pictures -/
example : doSpec2dot ">0\t0\t1\n1*\t1\t1\n".toList ≠ doSpec2dot ">0\t0\t1\n1*\t0\t1\n".toList := by decide +kernel

end Homfa
