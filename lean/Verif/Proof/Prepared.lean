import Verif.Proof.CleanRun
import Verif.Proof.Convert2
import Verif.Proof.TestHomfa
import Verif.Props.Canon

/-! # Reversing a spec in advance -/

namespace Homfa

variable {N n l : Nat}

/-- what `spec2spec --reversed` prints is read back as the automaton `run reverse` makes of the spec -/
theorem prepared_graph {s text : List Char} {m : Bool} (h : doSpec2spec s m true false = .ok text) (hlen : text.length ≤ 2 ^ 31)
    (hm : m = true ∨ ∀ g, Graph.fromIstream s = .ok g → ∀ q < g.size, ∃ w, g.runWord g.initialState w = .ok q) :
    ∃ g r k, Graph.fromIstream s = .ok g ∧ g.reversed = .ok r ∧ r.minimized = .ok k ∧ Graph.fromIstream text = .ok k ∧ k.WF ∧ k.dump = .ok text := by
  unfold doSpec2spec at h
  obtain ⟨g, hg, h⟩ := Res.bind_eq_ok.1 h
  obtain ⟨g', hg', h⟩ := Res.bind_eq_ok.1 h
  cases hg'
  obtain ⟨r, hr, h⟩ := Res.bind_eq_ok.1 h
  obtain ⟨k, hk, h⟩ := Res.bind_eq_ok.1 h
  simp only [if_true] at hr
  have main : r.minimized = .ok k ∧ k.WF ∧ k.statesAtDepth = [] := by
    rcases fromIstream_cases s with ⟨e, g1, _⟩ | g1 | ⟨g1, g2, wf⟩
    · rw [g1] at hg; cases hg
    · rw [g1] at hg; cases hg
      rw [show emptyGraph.reversed = .ok (Graph.built 0 [] [(0, 0, 0)]) from by decide] at hr
      cases hr
      have e : (Graph.built 0 [] [(0, 0, 0)]).minimized = .ok (Graph.built 0 [] [(0, 0, 0)]) := by decide
      have ek : k = Graph.built 0 [] [(0, 0, 0)] := by
        cases m
        · exact (Except.ok.inj hk).symm
        · simp only [if_true] at hk
          rw [e] at hk
          exact (Except.ok.inj hk).symm
      subst ek
      have h1 : Graph.fromIstream ">0\t0\t0\n".toList = .ok (Graph.built 0 [] [(0, 0, 0)]) := by decide
      exact ⟨e, wf_of_fromIstream h1 (by decide), rfl⟩
    · rw [g2] at hg; cases hg
      obtain ⟨r', a1, a2, a3, _⟩ := Graph.reversed_spec wf
      rw [hr] at a1; cases a1
      obtain ⟨k', b1, b2, b3, _⟩ := Graph.minimized_good a2
      cases m with
      | true =>
        simp only [if_true] at hk
        rw [hk] at b1; cases b1
        exact ⟨hk, b2, b3⟩
      | false =>
        simp only [Bool.false_eq_true, if_false] at hk
        cases hk
        rcases hm with hm | hm
        · cases hm
        · exact ⟨C73_reversed_minimal _ wf (hm _ g2) _ hr, a2, a3⟩
  obtain ⟨c1, c2, c3⟩ := main
  refine ⟨g, r, k, hg, hr, c1, ?_, c2, h⟩
  have hd := Graph.dump_ok c2
  have hsz := Graph.length_dump c2 h
  rw [h] at hd
  cases hd
  rw [Graph.fromIstream_dump c2 (by omega)]
  congr 1
  rw [← c3]

theorem reverse_prepared (S : Scheme N n l) {s text : List Char} {m : Bool} (h : doSpec2spec s m true false = .ok text) (hlen : text.length ≤ 2 ^ 31)
    (hm : m = true ∨ ∀ g, Graph.fromIstream s = .ok g → ∀ q < g.size, ∃ w, g.runWord g.initialState w = .ok q)
    (hidden : Nat) (cs : List (Gsw l N)) (o d : Option String) (freq boot : Nat) (san : Bool) :
    doRunReverse S s hidden cs o d freq boot false san = doRunReverse S text hidden cs o d freq boot true san := by
  obtain ⟨g, r, k, h1, h2, h3, h4, _⟩ := prepared_graph h hlen hm
  have e : (reverseMake g boot false true san : Res (Backstream N)) = reverseMake k boot true true san := by
    unfold reverseMake
    simp only [Bool.false_eq_true, if_false, if_true]
    rw [h2, Res.bind_ok, h3]
    rfl
  unfold doRunReverse
  rw [h1, h4, Res.bind_ok, Res.bind_ok, e]

namespace Cli

variable {L : Lib N n l}

theorem exec_reverse {fs : Files} {spec input bkey : String} {out dir : Option String} {freq boot : Nat} {isRev san : Bool}
    {r : Res (Files × List Char)} :
    Exec L [] fs (.runReverse spec input out dir freq boot isRev bkey san) r ↔ ∃ q, Fetch .forward (fs input) q ∧ r = (do
        let (pre, cs) ← q
        let b ← readArchive L.loadBKey (fs bkey)
        let s ← readSpec (fs spec)
        let rs ← doRunReverse (L.server b) s (pre.getLastD 0) cs out dir freq boot isRev san
        pure (writeResults L fs rs, [])) := by
  constructor
  · intro h; cases h with
    | runReverse hq => exact ⟨_, hq, rfl⟩
  · rintro ⟨q, hq, rfl⟩
    exact .runReverse hq

theorem run_reverse_line {fs : Files} {B R S C : String} (hB : Word B) (hR : Word R) (hS : Word S) (hC : Word C)
    (h : (fs B).isSome) (hs : (fs S).isSome) (hc : (fs C).isSome) {freq boot : Nat} (hf0 : 0 < freq) (hf64 : freq < 2 ^ 64) (h0 : 0 < boot)
    (h64 : boot < 2 ^ 64) {fl : List String} (hfl : fl = [] ∨ fl = ["--spec-reversed"]) {r : Res (Files × List Char)} :
    RunHomfa L [] fs (["run", "reverse", "--bkey", B, "--out", R, "--spec", S, "--in", C, "--out-freq", toString freq,
        "--bootstrapping-freq", toString boot] ++ fl) r ↔
      Exec L [] fs (.runReverse S C (some R) none freq boot (decide (fl ≠ [])) B false) r := by
  obtain ⟨b, h⟩ := Option.isSome_iff_exists.1 h
  obtain ⟨s, hs⟩ := Option.isSome_iff_exists.1 hs
  obtain ⟨c, hc⟩ := Option.isSome_iff_exists.1 hc
  have hf : Cmd.runReverse.usage.Follows (fun f => (fs f).isSome) (itemsOf [("--bkey", B), ("--out", R), ("--spec", S), ("--in", C),
      ("--out-freq", toString freq), ("--bootstrapping-freq", toString boot)] fl) := by
    refine follows_pairs ?_ (by simp) (by simp [Cmd.usage]) (by rcases hfl with rfl | rfl <;> simp [Cmd.usage]) rfl
    intro p hp
    simp only [List.mem_cons, List.not_mem_nil, or_false] at hp
    rcases hp with rfl | rfl | rfl | rfl | rfl | rfl
    · exact ⟨.file, by simp [Cmd.usage], hB.file h⟩
    · exact ⟨.text, by simp [Cmd.usage], hR.text _⟩
    · exact ⟨.file, by simp [Cmd.usage], hS.file hs⟩
    · exact ⟨.file, by simp [Cmd.usage], hC.file hc⟩
    · exact ⟨.positive, by simp [Cmd.usage], positive_ok hf0 hf64 _⟩
    · exact ⟨.positive, by simp [Cmd.usage], positive_ok h0 h64 _⟩
  have key := run_iff (L := L) (stdin := []) .runReverse (w := ["run", "reverse"]) (by simp [Cmd.names]) hf (r := r)
  rcases hfl with rfl | rfl
  · have e : Cmd.runReverse.call (itemsOf [("--bkey", B), ("--out", R), ("--spec", S), ("--in", C),
      ("--out-freq", toString freq), ("--bootstrapping-freq", toString boot)] []) =
      .runReverse S C (some R) none (Nat.ofDigitChars 10 (toString freq).toList 0) (Nat.ofDigitChars 10 (toString boot).toList 0) false B
        false := rfl
    rw [e, ofDigits_toString, ofDigits_toString] at key
    exact key
  · have e : Cmd.runReverse.call (itemsOf [("--bkey", B), ("--out", R), ("--spec", S), ("--in", C),
      ("--out-freq", toString freq), ("--bootstrapping-freq", toString boot)] ["--spec-reversed"]) =
      .runReverse S C (some R) none (Nat.ofDigitChars 10 (toString freq).toList 0) (Nat.ofDigitChars 10 (toString boot).toList 0) true B
        false := rfl
    rw [e, ofDigits_toString, ofDigits_toString] at key
    exact key

end Cli
end Homfa
