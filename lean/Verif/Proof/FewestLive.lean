import Verif.Proof.Convert2
import Verif.Props.Block
import Verif.Props.Flut
import Verif.Props.Shell
import Verif.Props.Convert2

/-! # Live states of a minimised automaton -/

namespace Homfa

/-- In an automaton whose states are pairwise distinguishable no more states are live than in any other one for the same words. -/
theorem live_inject {m k : Graph} (hm : m.WF) (hk : k.WF)
    (hd : ∀ a < m.size, ∀ b < m.size, a ≠ b → ∃ w, m.accFrom a w ≠ m.accFrom b w) (hl : ∀ w, m.dfa.accepts w = k.dfa.accepts w) {d : Nat}
    {X : List Nat} (hX : X.Nodup) (hr : ∀ q ∈ X, ∃ w : List Bool, w.length = d ∧ m.runWord m.initialState w = .ok q) :
    ∃ Y : List Nat, Y.Nodup ∧ Y.length = X.length ∧ ∀ q ∈ Y, ∃ w : List Bool, w.length = d ∧ k.runWord k.initialState w = .ok q := by
  classical
  have hr' : ∀ q ∈ X, ∃ w : List Bool, w.length = d ∧ w.foldl m.nx m.init = q := by
    intro q hq
    obtain ⟨w, h1, h2⟩ := hr q hq
    refine ⟨w, h1, ?_⟩
    have := (hm.run_ok hm.init_lt w).1
    rw [show m.runWord m.init w = .ok q from h2] at this
    exact (Except.ok.inj this).symm
  let word : Nat → List Bool := fun q => if h : ∃ w : List Bool, w.length = d ∧ w.foldl m.nx m.init = q then h.choose else []
  have hw : ∀ q ∈ X, (word q).length = d ∧ (word q).foldl m.nx m.init = q := by
    intro q hq
    have h := hr' q hq
    simp only [word, h, dif_pos]
    exact h.choose_spec
  have key : ∀ (u w : List Bool), m.accFrom (u.foldl m.nx m.init) w = k.accFrom (u.foldl k.nx k.init) w := by
    intro u w
    have := hl (u ++ w)
    simp only [Spec.Dfa.accepts, Spec.Dfa.run, List.foldl_append] at this
    exact this
  refine ⟨X.map fun q => (word q).foldl k.nx k.init, List.Nodup.map_on ?_ hX, by simp, ?_⟩
  · intro a ha b hb e
    by_contra hne
    have h1 := hw a ha
    have h2 := hw b hb
    obtain ⟨w, h⟩ := hd a (h1.2 ▸ hm.run_lt hm.init_lt _) b (h2.2 ▸ hm.run_lt hm.init_lt _) hne
    apply h
    have e1 := key (word a) w
    have e2 := key (word b) w
    rw [h1.2] at e1
    rw [h2.2] at e2
    rw [e1, e2, e]
  · intro q hq
    obtain ⟨a, ha, rfl⟩ := List.mem_map.1 hq
    exact ⟨word a, (hw a ha).1, (hk.run_ok hk.init_lt _).1⟩

namespace Cli

variable {N n l : Nat} {L : Lib N n l}

/-- what `spec2spec --minimized` prints, and that it can be read back -/
theorem minimized_text (stdin : List Char) {fs : Files} {S : String} (wS : Word S) {specB : List Byte} (hs : fs S = some specB) {g m : Graph}
    (hg : Graph.fromIstream (textOf specB) = .ok g) (hm : g.minimized = .ok m) (wf : m.WF) (h0 : m.statesAtDepth = []) {text : List Char}
    (h : JustPrints L stdin fs ["spec2spec", "--minimized", S] text) (hlen : text.length ≤ 2 ^ 31) : Graph.fromIstream text = .ok m := by
  have hd : doSpec2spec (textOf specB) true false false = m.dump := by
    unfold doSpec2spec
    rw [hg, Res.bind_ok]
    simp only [Bool.false_eq_true, if_false, if_true, Res.pure_eq, Res.bind_ok, hm]
  have a := run_spec2spec (L := L) (stdin := stdin) (fs := fs) (flags := ["--minimized"]) (by simp) (F := some S) (by rintro f ⟨⟩; exact .inr wS)
    (r := .ok (fs, text))
  rw [show fileOrStdin readSpec fs stdin (some S) = .ok (textOf specB) by simp [fileOrStdin, word_ne_dash wS, hs, readSpec], Res.bind_ok] at a
  have b := a.1 ((h _).2 rfl)
  simp only [List.mem_singleton, decide_true, show decide ("--reversed" = "--minimized") = false from by decide,
    show decide ("--negated" = "--minimized") = false from by decide, hd] at b
  have hdump := Graph.dump_ok wf
  rw [hdump, Res.bind_ok] at b
  cases b
  rw [Graph.fromIstream_dump wf (Nat.le_trans (Graph.length_dump wf hdump) hlen)]
  cases m; simp_all

end Cli
end Homfa
