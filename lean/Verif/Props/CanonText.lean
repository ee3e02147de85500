import Verif.Proof.Bfs
import Verif.Props.Canon
import Verif.Props.Safety
import Verif.Props.Convert2
/-!
# C115: texts that can be compared

`minimized()` alone is canonical up to the numbers of the states only (C73).  After `reversed()`, and on what `ltl2spec` and `att2spec` print, the numbers are
canonical as well: two specifications with the same words are printed as the same text, so that comparing two printed texts decides whether two
specifications, or two formulas, mean the same.
-/

namespace Homfa
open Spec

variable {N n l : Nat}

/-- Minimizing and printing graphs whose states are numbered in the order in which they are met. -/
theorem canon_text {g k : Graph} (hg : g.InOrder) (hk : k.InOrder) (wg : g.WF) (wk : k.WF) (hr : ∀ q < g.size, g.Reach q) (hr' : ∀ q < k.size, k.Reach q) :
    ∃ out out', (do let m ← g.minimized; m.dump) = .ok out ∧ (do let m ← k.minimized; m.dump) = .ok out' ∧
      ((∀ w, g.dfa.accepts w = k.dfa.accepts w) → out = out') ∧
      (out = out' → out.length ≤ 2 ^ 31 → ∀ w, g.dfa.accepts w = k.dfa.accepts w) := by
  obtain ⟨m, a1, a2, a3, a4, _⟩ := Graph.minimized_good wg
  obtain ⟨m', b1, b2, b3, b4, _⟩ := Graph.minimized_good wk
  refine ⟨_, _, by rw [a1, Res.bind_ok]; exact Graph.dump_ok a2, by rw [b1, Res.bind_ok]; exact Graph.dump_ok b2, fun hl => ?_, fun he hlen w => ?_⟩
  · obtain ⟨c, c1, c2, _⟩ := Graph.minimized_eq hg hk wg wk hr hr' hl
    rw [a1] at c1
    rw [b1] at c2
    cases c1; cases c2; rfl
  · have s1 := Graph.length_dump a2 (Graph.dump_ok a2)
    have s2 := Graph.length_dump b2 (Graph.dump_ok b2)
    have e1 := Graph.fromIstream_dump a2 (Nat.le_trans s1 hlen)
    have e2 := Graph.fromIstream_dump b2 (Nat.le_trans s2 (he ▸ hlen))
    rw [he, e2] at e1
    injection e1 with e1
    have e : m' = m := by
      cases m; cases m'
      simp_all
    rw [← a4, ← b4, e]

theorem reversed_inOrder {g r : Graph} (hg : g.WF) (h : g.reversed = .ok r) : r.InOrder := by
  rw [Graph.reversed_eq hg] at h
  exact FromNfa.fromNfa_inOrder hg.fin_sorted h

theorem accepts_iff {g k : Graph} (hg : g.WF) (hk : k.WF) : (∀ w, g.accepts w = k.accepts w) ↔ ∀ w, g.dfa.accepts w = k.dfa.accepts w := by
  refine forall_congr' fun w => ?_
  rw [hg.accepts_eq, hk.accepts_eq]
  exact ⟨fun h => by injection h, fun h => by rw [h]⟩

/-- **C115.** For any two specifications that can be read `spec2spec --minimized --reversed`, with or without `--negated`, prints the same text if they
accept the same words; and if it prints the same text they do (if the text fits an `int`). -/
theorem C115_spec2spec {spec spec' : List Char} {g g' : Graph} (hg : Graph.fromIstream spec = .ok g) (hg' : Graph.fromIstream spec' = .ok g')
    (hs : 0 < g.size) (hs' : 0 < g'.size) (negated : Bool) :
    ∃ out out', doSpec2spec spec true true negated = .ok out ∧ doSpec2spec spec' true true negated = .ok out' ∧
      ((∀ w, g.accepts w = g'.accepts w) → out = out') ∧ (out = out' → out.length ≤ 2 ^ 31 → ∀ w, g.accepts w = g'.accepts w) := by
  have wg := wf_of_fromIstream hg hs
  have wg' := wf_of_fromIstream hg' hs'
  have neg : ∀ {g : Graph}, g.WF → ∃ n, (if negated then g.negated else pure g) = .ok n ∧ n.WF ∧ ∀ w, n.dfa.accepts w = (negated ^^ g.dfa.accepts w) := by
    intro g hg
    cases negated
    · exact ⟨g, rfl, hg, fun w => by simp⟩
    · obtain ⟨n, h1, h2, h3⟩ := C09_negated_language g hg
      refine ⟨n, h1, h2, fun w => ?_⟩
      obtain ⟨b, h4, h5⟩ := h3 w
      rw [hg.accepts_eq] at h4
      rw [h2.accepts_eq] at h5
      injection h4 with h4
      injection h5 with h5
      rw [h5, h4]
      simp
  obtain ⟨a, a1, a2, a3⟩ := neg wg
  obtain ⟨a', b1, b2, b3⟩ := neg wg'
  obtain ⟨r, c1, c2, _, _, c5, c6⟩ := Graph.reversed_spec a2
  obtain ⟨r', d1, d2, _, _, d5, d6⟩ := Graph.reversed_spec b2
  obtain ⟨out, out', e1, e2, e3, e4⟩ := canon_text (reversed_inOrder a2 c1) (reversed_inOrder b2 d1) c2 d2 c5 d5
  refine ⟨out, out', ?_, ?_, fun h => e3 fun w => ?_, fun h hlen => (accepts_iff wg wg').2 fun w => ?_⟩
  · unfold doSpec2spec
    rw [hg, Res.bind_ok, a1, Res.bind_ok, if_pos rfl, c1, Res.bind_ok, if_pos rfl]
    exact e1
  · unfold doSpec2spec
    rw [hg', Res.bind_ok, b1, Res.bind_ok, if_pos rfl, d1, Res.bind_ok, if_pos rfl]
    exact e2
  · rw [c6, d6, a3, b3, (accepts_iff wg wg').1 h]
  · have := e4 h hlen w.reverse
    rw [c6, d6, List.reverse_reverse, a3, b3] at this
    simpa using this

/-- **C115.** So does `spec2spec --reversed`, applied twice. -/
theorem C115_twice {spec spec' : List Char} {g g' : Graph} (hg : Graph.fromIstream spec = .ok g) (hg' : Graph.fromIstream spec' = .ok g')
    (hs : 0 < g.size) (hs' : 0 < g'.size) :
    ∃ rev rev', doSpec2spec spec false true false = .ok rev ∧ doSpec2spec spec' false true false = .ok rev' ∧
      (rev.length ≤ 2 ^ 31 → rev'.length ≤ 2 ^ 31 →
        ∃ out out', doSpec2spec rev false true false = .ok out ∧ doSpec2spec rev' false true false = .ok out' ∧
          ((∀ w, g.accepts w = g'.accepts w) → out = out') ∧ (out = out' → out.length ≤ 2 ^ 31 → ∀ w, g.accepts w = g'.accepts w)) := by
  have wg := wf_of_fromIstream hg hs
  have wg' := wf_of_fromIstream hg' hs'
  have once : ∀ {s : List Char} {g : Graph}, Graph.fromIstream s = .ok g → g.WF → ∃ r, g.reversed = .ok r ∧ r.WF ∧ r.statesAtDepth = [] ∧
      (∀ q < r.size, r.Reach q) ∧ (∀ w, r.dfa.accepts w = g.dfa.accepts w.reverse) ∧ ∃ out, r.dump = .ok out ∧ doSpec2spec s false true false = .ok out := by
    intro s g hg wg
    obtain ⟨r, h1, h2, h3, _, h5, h6⟩ := Graph.reversed_spec wg
    refine ⟨r, h1, h2, h3, h5, h6, _, Graph.dump_ok h2, ?_⟩
    unfold doSpec2spec
    rw [hg, Res.bind_ok, if_neg (by simp), Res.pure_eq, Res.bind_ok, if_pos rfl, h1, Res.bind_ok, if_neg (by simp), Res.pure_eq, Res.bind_ok]
    exact Graph.dump_ok h2
  obtain ⟨r, a1, a2, a3, a4, a5, rev, a6, a7⟩ := once hg wg
  obtain ⟨r', b1, b2, b3, b4, b5, rev', b6, b7⟩ := once hg' wg'
  refine ⟨rev, rev', a7, b7, fun hl hl' => ?_⟩
  have back : ∀ {r : Graph} {rev : List Char}, r.WF → r.statesAtDepth = [] → r.dump = .ok rev → rev.length ≤ 2 ^ 31 → Graph.fromIstream rev = .ok r := by
    intro r rev h1 h2 h3 h4
    obtain ⟨t, k1, k2⟩ := C14_dump_parse r h1 (Nat.le_trans (Graph.length_dump h1 h3) h4)
    rw [h3] at k1
    cases k1
    rw [k2]
    cases r
    simp_all
  obtain ⟨s, c1, c2, _, c4, c5, out, c6, c7⟩ := once (back a2 a3 a6 hl) a2
  obtain ⟨s', d1, d2, _, d4, d5, out', d6, d7⟩ := once (back b2 b3 b6 hl') b2
  have min : ∀ {r s : Graph}, r.WF → (∀ q < r.size, r.Reach q) → r.reversed = .ok s → s.minimized = .ok s := fun {r s} h1 h2 h3 =>
    C73_reversed_minimal r h1 (fun q hq => by
      obtain ⟨w, hw⟩ := h2 q hq
      exact ⟨w, by rw [← hw]; exact (h1.run_ok h1.init_lt w).1⟩) s h3
  obtain ⟨o, o', e1, e2, e3, e4⟩ := canon_text (reversed_inOrder a2 c1) (reversed_inOrder b2 d1) c2 d2 c4 d4
  rw [min a2 a4 c1, Res.bind_ok, c6] at e1
  rw [min b2 b4 d1, Res.bind_ok, d6] at e2
  cases e1; cases e2
  refine ⟨_, _, c7, d7, fun h => e3 fun w => ?_, fun h hlen => (accepts_iff wg wg').2 fun w => ?_⟩
  · rw [c5, d5, a5, b5, (accepts_iff wg wg').1 h]
  · have := e4 h hlen w
    rw [c5, d5, a5, b5, List.reverse_reverse] at this
    exact this

/-- What `ltl2spec` prints, read back. -/
theorem ltl_inOrder {M : Monitor} {ap : Nat} (hM : MonitorOk M ap) {allFinal : Bool} {out : List Char} (h : doLtl2spec M ap allFinal = .ok out)
    {g : Graph} (hg : Graph.fromIstream out = .ok g) (hlen : out.length ≤ 2 ^ 31) : g.InOrder ∧ ∀ q < g.size, g.Reach q := by
  obtain ⟨F, D, h1, _⟩ := Ltl.nfaTuple_lang' hM allFinal
  unfold doLtl2spec Graph.fromMonitor at h
  rw [h1, Res.bind_ok] at h
  obtain ⟨k, k1, k2⟩ := Res.bind_eq_ok.1 h
  have hs : SSorted [M.init] := List.pairwise_singleton _ _
  obtain ⟨w1, w2, _, _, _, w6, _⟩ := FromNfa.fromNfa_good hs k1
  obtain ⟨t, e1, e2⟩ := C14_dump_parse k w1 (Nat.le_trans (Graph.length_dump w1 k2) hlen)
  rw [k2] at e1
  cases e1
  rw [hg] at e2
  cases e2
  have := FromNfa.fromNfa_inOrder hs k1
  exact ⟨⟨this.init, this.grow⟩, w6⟩

/-- **C115, formulas.** Minimizing what `ltl2spec` prints for two formulas, both with the flag or both without, gives the same text if the formulas have the same
beginnings; and if it gives the same text they have (if the text fits an `int`). -/
theorem C115_ltl {M M' : Monitor} {ap : Nat} (hap : 0 < ap) {φ ψ : Formula} (hM : MonitorFor M ap φ) (hM' : MonitorFor M' ap ψ) {allFinal : Bool} {spec spec' : List Char}
    (hspec : doLtl2spec M ap allFinal = .ok spec) (hspec' : doLtl2spec M' ap allFinal = .ok spec') (hlen : spec.length ≤ 2 ^ 31) (hlen' : spec'.length ≤ 2 ^ 31) :
    ∃ out out', doSpec2spec spec true false false = .ok out ∧ doSpec2spec spec' true false false = .ok out' ∧
      (SameBeginnings ap φ ψ → out = out') ∧ (out = out' → out.length ≤ 2 ^ 31 → SameBeginnings ap φ ψ) := by
  obtain ⟨g, a1, a2, a3⟩ := ltl_graph hM.toMonitorOk hspec hlen
  obtain ⟨g', b1, b2, b3⟩ := ltl_graph hM'.toMonitorOk hspec' hlen'
  obtain ⟨a4, a5⟩ := ltl_inOrder hM.toMonitorOk hspec a1 hlen
  obtain ⟨b4, b5⟩ := ltl_inOrder hM'.toMonitorOk hspec' b1 hlen'
  obtain ⟨out, out', e1, e2, e3, e4⟩ := canon_text a4 b4 a2 b2 a5 b5
  refine ⟨out, out', ?_, ?_, fun h => e3 ?_, fun h hl => ?_⟩
  · unfold doSpec2spec
    rw [a1, Res.bind_ok, if_neg (by simp), Res.pure_eq, Res.bind_ok, if_neg (by simp), Res.pure_eq, Res.bind_ok, if_pos rfl]
    exact e1
  · unfold doSpec2spec
    rw [b1, Res.bind_ok, if_neg (by simp), Res.pure_eq, Res.bind_ok, if_neg (by simp), Res.pure_eq, Res.bind_ok, if_pos rfl]
    exact e2
  · obtain ⟨k, k', h1, h2, _, _, h5⟩ := C114_same_words hM hM' h hspec hspec' hlen hlen'
    rw [a1] at h1
    rw [b1] at h2
    cases h1; cases h2
    exact (accepts_iff a2 b2).1 h5
  · have hw := (accepts_iff a2 b2).2 (e4 h hl)
    have runs : ∀ {M : Monitor} {g : Graph}, (∀ w, ∃ b, g.accepts w = .ok b ∧ (b = true ↔
        ∃ (v : List Bool) (letters : List (List Bool)) (q : Nat), (allFinal = false → v = []) ∧
          (∀ a ∈ letters, a.length = ap) ∧ w ++ v = letters.flatten ∧ MonitorRun M M.init letters q)) →
        ∀ letters : List (List Bool), (∀ a ∈ letters, a.length = ap) → (g.accepts letters.flatten = .ok true ↔ ∃ q, MonitorRun M M.init letters q) := by
      intro M g hg letters hl
      obtain ⟨b, h1, h2⟩ := hg letters.flatten
      rw [h1]
      constructor
      · intro hb
        injection hb with hb
        obtain ⟨v, ls, q, _, k2, k3, k4⟩ := h2.1 hb
        obtain ⟨cs, rfl⟩ := flatten_letters hap letters ls hl k2 v k3
        exact monitorRun_prefix letters cs _ _ k4
      · rintro ⟨q, hq⟩
        rw [h2.2 ⟨[], letters, q, fun _ => rfl, hl, by simp, hq⟩]
    have ne : ∀ letters : List (List Bool), letters ≠ [] → (∀ a ∈ letters, a.length = ap) →
        ((∃ σ, BeginsWith σ letters ∧ φ.Holds σ) ↔ ∃ σ, BeginsWith σ letters ∧ ψ.Holds σ) := by
      intro letters hne hl
      rw [← hM.reads letters hne hl, ← hM'.reads letters hne hl, ← runs a3 letters hl, ← runs b3 letters hl, hw]
    have nil : ∀ (φ : Formula), (∃ σ, BeginsWith σ [] ∧ φ.Holds σ) ↔ ∃ a : List Bool, a.length = ap ∧ ∃ σ, BeginsWith σ [a] ∧ φ.Holds σ := by
      intro φ
      constructor
      · rintro ⟨σ, _, h2⟩
        refine ⟨(List.range ap).map (σ 0), by simp, σ, fun t a ha i b hb => ?_, h2⟩
        obtain ⟨ht, rfl⟩ := List.getElem?_eq_some_iff.1 ha
        have : t = 0 := by simpa using ht
        subst this
        obtain ⟨hi, rfl⟩ := List.getElem?_eq_some_iff.1 hb
        simp
      · rintro ⟨_, _, σ, _, h⟩
        exact ⟨σ, fun t a ha => by simp at ha, h⟩
    intro letters hl
    by_cases hne : letters = []
    · subst hne
      rw [nil φ, nil ψ]
      exact exists_congr fun a => and_congr_right fun ha => ne [a] (by simp) (by simpa using ha)
    · exact ne letters hne hl

/-- **C115, AT&T texts.** Minimizing what `att2spec` prints for two AT&T texts gives the same text if and only if (if it fits an `int`) the automata that were
read, and so the two texts (C52), accept the same words. -/
theorem C115_att {att att' : List Char} {g g' : Graph} (hg : Graph.fromAttIstream att = .ok g) (hg' : Graph.fromAttIstream att' = .ok g') :
    ∃ spec spec', doAtt2spec att = .ok spec ∧ doAtt2spec att' = .ok spec' ∧
      (spec.length ≤ 2 ^ 31 → spec'.length ≤ 2 ^ 31 →
        ∃ out out', doSpec2spec spec true false false = .ok out ∧ doSpec2spec spec' true false false = .ok out' ∧
          ((∀ w, g.accepts w = g'.accepts w) → out = out') ∧ (out = out' → out.length ≤ 2 ^ 31 → ∀ w, g.accepts w = g'.accepts w)) := by
  have one : ∀ {att : List Char} {g : Graph}, Graph.fromAttIstream att = .ok g → g.WF ∧ g.InOrder ∧ (∀ q < g.size, g.Reach q) ∧
      ∃ spec, doAtt2spec att = .ok spec ∧ (spec.length ≤ 2 ^ 31 → doSpec2spec spec true false false = (do let m ← g.minimized; m.dump)) := by
    intro att g hg
    have hk := hg
    unfold Graph.fromAttIstream at hk
    obtain ⟨p, _, hp⟩ := Res.bind_eq_ok.1 hk
    have hs : SSorted [0] := List.pairwise_singleton _ _
    obtain ⟨w1, w2, _, _, _, w6, _⟩ := FromNfa.fromNfa_good hs hp
    refine ⟨w1, FromNfa.fromNfa_inOrder hs hp, w6, ((List.range g.size).map g.dumpLine).flatMap (· ++ ['\n']), ?_, fun hl => ?_⟩
    · unfold doAtt2spec
      rw [hg, Res.bind_ok]
      exact Graph.dump_ok w1
    · have := Graph.fromIstream_dump w1 (Nat.le_trans (Graph.length_dump w1 (Graph.dump_ok w1)) hl)
      have e : ({ g with statesAtDepth := [] } : Graph) = g := by cases g; simp_all
      unfold doSpec2spec
      rw [this, Res.bind_ok, if_neg (by simp), Res.pure_eq, Res.bind_ok, if_neg (by simp), Res.pure_eq, Res.bind_ok, if_pos rfl, e]
  obtain ⟨a1, a2, a3, spec, a4, a5⟩ := one hg
  obtain ⟨b1, b2, b3, spec', b4, b5⟩ := one hg'
  refine ⟨spec, spec', a4, b4, fun hl hl' => ?_⟩
  obtain ⟨out, out', e1, e2, e3, e4⟩ := canon_text a2 b2 a1 b1 a3 b3
  exact ⟨out, out', (a5 hl).trans e1, (b5 hl').trans e2, fun h => e3 ((accepts_iff a1 b1).1 h), fun h hlen => (accepts_iff a1 b1).2 (e4 h hlen)⟩

/-- **C115, the limit.** `spec2spec --minimized` alone does not do it: there are two specifications with the same words that it prints as different texts. -/
theorem C115_minimized_alone : ∃ spec spec' g g' out out', Graph.fromIstream spec = .ok g ∧ Graph.fromIstream spec' = .ok g' ∧ 0 < g.size ∧ 0 < g'.size ∧
    (∀ w, g.accepts w = g'.accepts w) ∧ doSpec2spec spec true false false = .ok out ∧ doSpec2spec spec' true false false = .ok out' ∧ out ≠ out' := by
  obtain ⟨g, hg, hs⟩ : ∃ g, Graph.fromIstream ">0\t0\t1\n1*\t2\t1\n2*\t1\t2\n".toList = .ok g ∧ 0 < g.size := ⟨_, rfl, by decide⟩
  obtain ⟨g', hg', hs'⟩ : ∃ g, Graph.fromIstream "0*\t1\t0\n1*\t0\t0\n2\t0\t3\n>3\t3\t1\n".toList = .ok g ∧ 0 < g.size := ⟨_, rfl, by decide⟩
  obtain ⟨out, out', h1, h2, _, h4⟩ := C115_spec2spec hg hg' hs hs' false
  have e : doSpec2spec ">0\t0\t1\n1*\t2\t1\n2*\t1\t2\n".toList true true false = .ok ">0\t0\t1\n1*\t1\t1\n".toList ∧
      doSpec2spec "0*\t1\t0\n1*\t0\t0\n2\t0\t3\n>3\t3\t1\n".toList true true false = .ok ">0\t0\t1\n1*\t1\t1\n".toList := by decide
  rw [h1, h2] at e
  obtain ⟨e1, e2⟩ := e
  cases e1; cases e2
  exact ⟨_, _, g, g', ">0\t0\t1\n1*\t1\t1\n".toList, "0*\t0\t0\n>1\t1\t0\n".toList, hg, hg', hs, hs', h4 rfl (by decide), by decide, by decide, by decide⟩

namespace Cli

variable {L : Lib N n l}

/-- **C115, on the command line.** For specification files S and S' `homfa spec2spec --minimized --reversed` prints the same text if and only if they accept the
same words. -/
theorem C115_files (stdin : List Char) {fs : Files} {S S' : String} (wS : Word S) (wS' : Word S') {specB specB' : List Byte} (hs : fs S = some specB)
    (hs' : fs S' = some specB') {g g' : Graph} (hg : Graph.fromIstream (textOf specB) = .ok g) (hg' : Graph.fromIstream (textOf specB') = .ok g')
    (h0 : 0 < g.size) (h0' : 0 < g'.size) :
    ∃ out out', JustPrints L stdin fs ["spec2spec", "--minimized", "--reversed", S] out ∧
      JustPrints L stdin fs ["spec2spec", "--minimized", "--reversed", S'] out' ∧
      ((∀ w, g.accepts w = g'.accepts w) → out = out') ∧ (out = out' → out.length ≤ 2 ^ 31 → ∀ w, g.accepts w = g'.accepts w) := by
  obtain ⟨out, out', h1, h2, h3, h4⟩ := C115_spec2spec hg hg' h0 h0' false
  have cmd : ∀ {S : String} {specB : List Byte} {out : List Char}, Word S → fs S = some specB → doSpec2spec (textOf specB) true true false = .ok out →
      JustPrints L stdin fs ["spec2spec", "--minimized", "--reversed", S] out := by
    intro S specB out wS hs ho r
    have a := run_spec2spec (L := L) (stdin := stdin) (fs := fs) (flags := ["--minimized", "--reversed"]) (by simp) (F := some S)
      (by rintro f ⟨⟩; exact .inr wS) (r := r)
    rw [show fileOrStdin readSpec fs stdin (some S) = .ok (textOf specB) by simp [fileOrStdin, word_ne_dash wS, hs, readSpec], Res.bind_ok] at a
    rw [show decide ("--minimized" ∈ ["--minimized", "--reversed"]) = true by decide, show decide ("--reversed" ∈ ["--minimized", "--reversed"]) = true by decide,
      show decide ("--negated" ∈ ["--minimized", "--reversed"]) = false by decide, ho] at a
    exact a
  exact ⟨out, out', cmd wS hs h1, cmd wS' hs' h2, h3, h4⟩

/-- **C115, formulas on the command line.** `homfa ltl2spec FML AP | homfa spec2spec --minimized` prints the same text for two formulas if and only if the formulas
have the same beginnings. -/
theorem C115_formulas {fml fml' : String} {φ ψ : Formula} {ap : Nat} (hap : 0 < ap) (hap64 : ap < 2 ^ 64)
    {M M' : Monitor} (hM : MonitorFor M ap φ) (hM' : MonitorFor M' ap ψ) (hw : Word fml) (hw' : Word fml')
    (hm : L.monitor fml ap = .ok M) (hm' : L.monitor fml' ap = .ok M')
    (flag : List String) (hflag : flag = [] ∨ flag = ["--make-all-live-states-final"])
    {fs fs1 fs1' : Files} {stdin stdin' : List Char} {spec spec' : List Char}
    (hspec : RunHomfa L stdin fs (["ltl2spec"] ++ flag ++ [fml, toString ap]) (.ok (fs1, spec))) (hsize : spec.length ≤ 2 ^ 31)
    (hspec' : RunHomfa L stdin' fs (["ltl2spec"] ++ flag ++ [fml', toString ap]) (.ok (fs1', spec'))) (hsize' : spec'.length ≤ 2 ^ 31) :
    ∃ out out', JustPrints L spec fs ["spec2spec", "--minimized"] out ∧ JustPrints L spec' fs ["spec2spec", "--minimized"] out' ∧
      (SameBeginnings ap φ ψ → out = out') ∧ (out = out' → out.length ≤ 2 ^ 31 → SameBeginnings ap φ ψ) := by
  have e1 := ok_of_map ((run_ltl2spec hw hap64 hm flag hflag).1 hspec)
  have e2 := ok_of_map ((run_ltl2spec hw' hap64 hm' flag hflag).1 hspec')
  obtain ⟨out, out', h1, h2, h3, h4⟩ := C115_ltl hap hM hM' e1 e2 hsize hsize'
  have cmd : ∀ {spec out : List Char}, doSpec2spec spec true false false = .ok out → JustPrints L spec fs ["spec2spec", "--minimized"] out := by
    intro spec out ho r
    have a := run_spec2spec (L := L) (stdin := spec) (fs := fs) (flags := ["--minimized"]) (by simp) (F := none) nofun (r := r)
    rw [show fileOrStdin readSpec fs spec none = .ok spec from rfl, Res.bind_ok] at a
    rw [show decide ("--minimized" ∈ ["--minimized"]) = true by decide, show decide ("--reversed" ∈ ["--minimized"]) = false by decide,
      show decide ("--negated" ∈ ["--minimized"]) = false by decide, ho] at a
    exact a
  exact ⟨out, out', cmd h1, cmd h2, h3, h4⟩

/-! ## The hypotheses are met -/

/-- two formulas with the same beginnings, whose specifications have nine and ten states -/
example : ∃ out, exLtlSpec ≠ exLtlSpec3 ∧ doSpec2spec exLtlSpec true false false = .ok out ∧ doSpec2spec exLtlSpec3 true false false = .ok out := by
  obtain ⟨out, out', h1, h2, h3, _⟩ := C115_ltl (by omega) exMonitor_for exMonitor3_for exLtlSpec_printed exLtlSpec3_printed exLtlSpec_length exLtlSpec3_length
  cases h3 exFormula2_beginnings
  exact ⟨out, by decide +kernel, h1, h2⟩

/-- two formulas whose texts differ -/
example : ¬ SameBeginnings 1 (.eventually (.prop 0)) (.not .top) := by
  intro h
  obtain ⟨_, _, h2⟩ := (h [] (by simp)).1 ⟨fun _ _ => true, fun t a ha => by simp at ha, 0, by omega, rfl, fun _ _ _ => trivial⟩
  exact h2 trivial

/-- two AT&T texts for "some bit is 1", a nondeterministic and a deterministic one -/
example : doAtt2spec "0\t0\t0\n0\t0\t1\n0\t1\t1\n1\t1\t0\n1\t1\t1\n1\n".toList = .ok ">0\t0\t1\n1*\t1\t1\n".toList ∧
    doAtt2spec "0\t0\t0\n0\t1\t1\n1\t2\t0\n1\t1\t1\n2\t2\t0\n2\t1\t1\n1\n2\n".toList = .ok ">0\t0\t1\n1*\t2\t1\n2*\t2\t1\n".toList ∧
    doSpec2spec ">0\t0\t1\n1*\t2\t1\n2*\t2\t1\n".toList true false false = .ok ">0\t0\t1\n1*\t1\t1\n".toList := by decide +kernel

/-- reversing twice: the two specifications of C73 with three and four rows -/
example : doSpec2spec ">0\t0\t1\n1*\t2\t1\n2*\t1\t2\n".toList false true false = .ok ">0\t0\t1\n1*\t1\t1\n".toList ∧
    doSpec2spec "0*\t1\t0\n1*\t0\t0\n2\t0\t3\n>3\t3\t1\n".toList false true false = .ok ">0\t1\t2\n1\t1\t2\n2*\t3\t3\n3*\t3\t3\n".toList ∧
    doSpec2spec ">0\t0\t1\n1*\t1\t1\n".toList false true false = .ok ">0\t0\t1\n1*\t1\t1\n".toList ∧
    doSpec2spec ">0\t1\t2\n1\t1\t2\n2*\t3\t3\n3*\t3\t3\n".toList false true false = .ok ">0\t0\t1\n1*\t1\t1\n".toList := by decide +kernel

/-- two specification files with different texts -/
example (L : Lib 16 2 1) : ∃ (fs : Files) (out : List Char), fs "a.spec" ≠ fs "b.spec" ∧ JustPrints L [] fs ["spec2spec", "--minimized", "--reversed", "a.spec"] out ∧
    JustPrints L [] fs ["spec2spec", "--minimized", "--reversed", "b.spec"] out := by
  have w : ∀ f ∈ ["a.spec", "b.spec"], Word f := by unfold Word; decide
  obtain ⟨g, g', h1, h2, h3, h4, h5⟩ := C114_same_words exMonitor_for exMonitor3_for exFormula2_beginnings exLtlSpec_printed exLtlSpec3_printed exLtlSpec_length
    exLtlSpec3_length
  rw [← exLtlBytes_text] at h1
  rw [← exLtlBytes3_text] at h2
  obtain ⟨out, out', k1, k2, k3, _⟩ := C115_files (L := L) [] (fs := exSafetyFiles 0 0 0) (S := "a.spec") (S' := "b.spec") (w _ (by simp)) (w _ (by simp)) rfl rfl h1 h2
    (Nat.lt_of_le_of_lt (Nat.zero_le _) h3.init_lt) (Nat.lt_of_le_of_lt (Nat.zero_le _) h4.init_lt)
  cases k3 h5
  exact ⟨_, out, by decide +kernel, k1, k2⟩

end Cli

end Homfa
