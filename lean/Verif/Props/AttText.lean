import Verif.Proof.BfsAtt
import Verif.Props.CanonText
/-!
# C116: byte for byte through the AT&T format

What `ltl2spec`, `att2spec` and `spec2spec --reversed` print is printed unchanged after `spec2att` and `att2spec`.
-/

namespace Homfa
open Spec

variable {N n l : Nat}

/-- the text of a graph in order, exported and imported -/
theorem text_att {g : Graph} (hg : g.InOrder) (hw : g.WF) (hr : ∀ q < g.size, g.Reach q) {text : List Char} (ht : g.dump = .ok text) (hlen : text.length ≤ 2 ^ 31) :
    ∃ att, doSpec2att text = .ok att ∧ doAtt2spec att = .ok text := by
  have hsz := Nat.le_trans (Graph.length_dump hw ht) hlen
  obtain ⟨t, h1, h2⟩ := C14_dump_parse g hw hsz
  rw [ht] at h1
  cases h1
  have hg' : ({ g with statesAtDepth := [] } : Graph).InOrder := ⟨hg.init, hg.grow⟩
  have hw' : ({ g with statesAtDepth := [] } : Graph).WF := ⟨hw.built, hw.idx, hw.init_lt, hw.fin_sorted⟩
  have e := hg'.att hw' hr hsz
  have hd := Graph.dumpAtt_ok hw'
  obtain ⟨att, ha⟩ : ∃ att, att = ((List.range g.size).flatMap ({ g with statesAtDepth := [] } : Graph).attLinesOf).flatMap (· ++ ['\n']) := ⟨_, rfl⟩
  refine ⟨att, ?_, ?_⟩
  · unfold doSpec2att
    rw [h2, Res.bind_ok, ha]
    exact hd
  · unfold doAtt2spec
    have e' : Graph.fromAttIstream att = .ok { g with statesAtDepth := [] } := by rw [ha]; exact e
    rw [e', Res.bind_ok]
    exact ht

/-- **C116, AT&T texts.** A specification made by `att2spec` is printed again by `spec2att` followed by `att2spec`, byte for byte. -/
theorem C116_att {att text : List Char} (h : doAtt2spec att = .ok text) (hlen : text.length ≤ 2 ^ 31) :
    ∃ att', doSpec2att text = .ok att' ∧ doAtt2spec att' = .ok text := by
  unfold doAtt2spec at h
  obtain ⟨g, hg, ht⟩ := Res.bind_eq_ok.1 h
  unfold Graph.fromAttIstream at hg
  obtain ⟨p, _, hp⟩ := Res.bind_eq_ok.1 hg
  have hs : SSorted [0] := List.pairwise_singleton _ _
  obtain ⟨w1, _, _, _, _, w6, _⟩ := FromNfa.fromNfa_good hs hp
  exact text_att (FromNfa.fromNfa_inOrder hs hp) w1 w6 ht hlen

/-- **C116, formulas.** So is a specification made by `ltl2spec`. -/
theorem C116_ltl {M : Monitor} {ap : Nat} (hM : MonitorOk M ap) {allFinal : Bool} {text : List Char} (h : doLtl2spec M ap allFinal = .ok text)
    (hlen : text.length ≤ 2 ^ 31) : ∃ att, doSpec2att text = .ok att ∧ doAtt2spec att = .ok text := by
  obtain ⟨F, D, h1, _⟩ := Ltl.nfaTuple_lang' hM allFinal
  unfold doLtl2spec Graph.fromMonitor at h
  rw [h1, Res.bind_ok] at h
  obtain ⟨k, k1, k2⟩ := Res.bind_eq_ok.1 h
  have hs : SSorted [M.init] := List.pairwise_singleton _ _
  obtain ⟨w1, _, _, _, _, w6, _⟩ := FromNfa.fromNfa_good hs k1
  exact text_att (FromNfa.fromNfa_inOrder hs k1) w1 w6 k2 hlen

/-- **C116, reversed specifications.** So is what `spec2spec --reversed` prints, with or without `--minimized` and `--negated`. -/
theorem C116_reversed {spec : List Char} {g : Graph} (hg : Graph.fromIstream spec = .ok g) (hs : 0 < g.size) (minimized negated : Bool) :
    ∃ text, doSpec2spec spec minimized true negated = .ok text ∧
      (text.length ≤ 2 ^ 31 → ∃ att, doSpec2att text = .ok att ∧ doAtt2spec att = .ok text) := by
  have wg := wf_of_fromIstream hg hs
  obtain ⟨a, a1, a2⟩ : ∃ n, (if negated then g.negated else pure g) = .ok n ∧ n.WF := by
    cases negated
    · exact ⟨g, rfl, wg⟩
    · obtain ⟨n, h1, h2, _⟩ := Graph.negated_spec wg
      exact ⟨n, h1, h2⟩
  obtain ⟨r, c1, c2, _, _, c5, _⟩ := Graph.reversed_spec a2
  obtain ⟨m, d1, d2, d3, d4⟩ : ∃ m, (if minimized then r.minimized else pure r) = .ok m ∧ m.WF ∧ m.InOrder ∧ ∀ q < m.size, m.Reach q := by
    cases minimized
    · exact ⟨r, rfl, c2, reversed_inOrder a2 c1, c5⟩
    · obtain ⟨m, h1, h2, _, _, h5, _⟩ := Graph.minimized_good c2
      exact ⟨m, h1, h2, (reversed_inOrder a2 c1).minimized c2 c5 h1, h5⟩
  refine ⟨((List.range m.size).map m.dumpLine).flatMap (· ++ ['\n']), ?_, text_att d3 d2 d4 (Graph.dump_ok d2)⟩
  unfold doSpec2spec
  rw [hg, Res.bind_ok, a1, Res.bind_ok, if_pos rfl, c1, Res.bind_ok, d1, Res.bind_ok]
  exact Graph.dump_ok d2

/-- **C116, the limit.** A specification with initial state 0 that none of them printed may come back with other numbers. -/
theorem C116_other : ∃ spec g att text, Graph.fromIstream spec = .ok g ∧ g.initialState = 0 ∧ g.dump = .ok spec ∧ doSpec2att spec = .ok att ∧
    doAtt2spec att = .ok text ∧ text ≠ spec := by
  obtain ⟨g, hg, h0, hd⟩ : ∃ g, Graph.fromIstream ">0\t2\t1\n1\t1\t1\n2*\t2\t2\n".toList = .ok g ∧ g.initialState = 0 ∧
      g.dump = .ok ">0\t2\t1\n1\t1\t1\n2*\t2\t2\n".toList := ⟨_, rfl, by decide, by decide⟩
  exact ⟨_, g, "0\t2\t0\n0\t1\t1\n1\t1\t0\n1\t1\t1\n2\t2\t0\n2\t2\t1\n2\n".toList, ">0\t1\t2\n1*\t1\t1\n2\t2\t2\n".toList, hg, h0, hd,
    by decide +kernel, by decide +kernel, by decide⟩

namespace Cli

variable {L : Lib N n l}

theorem through_att {text att : List Char} (h1 : doSpec2att text = .ok att) (h2 : doAtt2spec att = .ok text) (fs : Files) :
    JustPrints L text fs ["spec2att"] att ∧ JustPrints L att fs ["att2spec"] text := by
  refine ⟨fun r => ?_, fun r => ?_⟩
  · have a := run_spec2att (L := L) (stdin := text) (fs := fs) (F := none) nofun (r := r)
    rw [show fileOrStdin readSpec fs text none = .ok text from rfl, Res.bind_ok, h1] at a
    exact a
  · have a := run_att2spec (L := L) (stdin := att) (fs := fs) (F := none) nofun (r := r)
    rw [show fileOrStdin readAtt fs att none = .ok att from rfl, Res.bind_ok, h2] at a
    exact a

/-- **C116, on the command line.** `homfa ltl2spec FML AP | homfa spec2att | homfa att2spec` prints what the first command printed. -/
theorem C116_ltl2spec {fml : String} {ap : Nat} (hap64 : ap < 2 ^ 64) {M : Monitor} (hM : MonitorOk M ap) (hw : Word fml) (hm : L.monitor fml ap = .ok M)
    (flag : List String) (hflag : flag = [] ∨ flag = ["--make-all-live-states-final"]) {fs fs1 : Files} {stdin text : List Char}
    (h : RunHomfa L stdin fs (["ltl2spec"] ++ flag ++ [fml, toString ap]) (.ok (fs1, text))) (hlen : text.length ≤ 2 ^ 31) :
    ∃ att, JustPrints L text fs ["spec2att"] att ∧ JustPrints L att fs ["att2spec"] text := by
  obtain ⟨att, h1, h2⟩ := C116_ltl hM (ok_of_map ((run_ltl2spec hw hap64 hm flag hflag).1 h)) hlen
  exact ⟨att, through_att h1 h2 fs⟩

/-- **C116, on the command line.** `homfa att2spec | homfa spec2att | homfa att2spec` prints what the first command printed. -/
theorem C116_att2spec {fs fs1 : Files} {stdin text : List Char} (h : RunHomfa L stdin fs ["att2spec"] (.ok (fs1, text))) (hlen : text.length ≤ 2 ^ 31) :
    ∃ att, JustPrints L text fs ["spec2att"] att ∧ JustPrints L att fs ["att2spec"] text := by
  have a := (run_att2spec (L := L) (stdin := stdin) (fs := fs) (F := none) nofun (r := .ok (fs1, text))).1 h
  rw [show fileOrStdin readAtt fs stdin none = .ok stdin from rfl, Res.bind_ok] at a
  obtain ⟨out, k1, k2⟩ := Res.bind_eq_ok.1 a.symm
  cases k2
  obtain ⟨att, h1, h2⟩ := C116_att k1 hlen
  exact ⟨att, through_att h1 h2 fs⟩

/-- **C116, on the command line.** `homfa spec2spec --reversed SPEC | homfa spec2att | homfa att2spec` prints what the first command printed, also with further
flags. -/
theorem C116_spec2spec {flags : List String} (hfl : ∀ f ∈ flags, f = "--minimized" ∨ f = "--reversed" ∨ f = "--negated") (hrev : "--reversed" ∈ flags)
    {fs : Files} {stdin : List Char} {S : String} (wS : Word S) {specB : List Byte} (hs : fs S = some specB) {g : Graph}
    (hg : Graph.fromIstream (textOf specB) = .ok g) (h0 : 0 < g.size) :
    ∃ text, JustPrints L stdin fs ("spec2spec" :: flags ++ [S]) text ∧
      (text.length ≤ 2 ^ 31 → ∃ att, JustPrints L text fs ["spec2att"] att ∧ JustPrints L att fs ["att2spec"] text) := by
  obtain ⟨text, h1, h2⟩ := C116_reversed hg h0 (decide ("--minimized" ∈ flags)) (decide ("--negated" ∈ flags))
  refine ⟨text, fun r => ?_, fun hlen => ?_⟩
  · have a := run_spec2spec (L := L) (stdin := stdin) (fs := fs) hfl (F := some S) (by rintro f ⟨⟩; exact .inr wS) (r := r)
    rw [show fileOrStdin readSpec fs stdin (some S) = .ok (textOf specB) by simp [fileOrStdin, word_ne_dash wS, hs, readSpec], Res.bind_ok, decide_eq_true hrev, h1] at a
    exact a
  · obtain ⟨att, k1, k2⟩ := h2 hlen
    exact ⟨att, through_att k1 k2 fs⟩

/-! ## The hypotheses are met -/

/-- the specification of G(p0 -> X p1) -/
example : ∃ att, doSpec2att exLtlSpec = .ok att ∧ doAtt2spec att = .ok exLtlSpec := C116_ltl exMonitor_ok exLtlSpec_printed exLtlSpec_length

/-- an automaton that is not deterministic: "a 1, then some bit" -/
example : doAtt2spec "0\t0\t0\n0\t0\t1\n0\t1\t1\n1\t2\t0\n1\t2\t1\n2\t2\t0\n2\t2\t1\n2\n".toList =
    .ok ">0\t0\t1\n1\t2\t3\n2*\t2\t3\n3*\t2\t3\n".toList := by decide +kernel

/-- files for `spec2spec --reversed --negated`: the specification file of C114 -/
example (L : Lib 16 2 1) (x y z : Byte) : ∃ text, JustPrints L [] (exSafetyFiles x y z) ["spec2spec", "--reversed", "--negated", "b.spec"] text ∧
    (text.length ≤ 2 ^ 31 → ∃ att, JustPrints L text (exSafetyFiles x y z) ["spec2att"] att ∧ JustPrints L att (exSafetyFiles x y z) ["att2spec"] text) := by
  obtain ⟨_, g, _, h2, _, h4, _⟩ := C114_same_words exMonitor_for exMonitor3_for exFormula2_beginnings exLtlSpec_printed exLtlSpec3_printed exLtlSpec_length
    exLtlSpec3_length
  rw [← exLtlBytes3_text] at h2
  exact C116_spec2spec (flags := ["--reversed", "--negated"]) (by simp) (by simp) (S := "b.spec") (by unfold Word; decide) rfl h2
    (Nat.lt_of_le_of_lt (Nat.zero_le _) h4.init_lt)

end Cli

end Homfa
