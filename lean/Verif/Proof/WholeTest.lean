import Verif.Model.WholeTest
import Verif.Proof.Convert2
import Verif.Props.Convert2
import Verif.Props.Test0
import Verif.Props.TestHomfa
import Mathlib.Data.Set.Card

namespace Homfa

/-- the number of states, when all can be reached, and words lead to the same state just if they do so in `f` -/
theorem ncard_reached {h : Graph} {f : List Bool → Nat} (h1 : ∀ q < h.size, ∃ w : List Bool, w.foldl h.nx h.init = q)
    (h2 : ∀ w : List Bool, w.foldl h.nx h.init < h.size) (h3 : ∀ u v : List Bool, u.foldl h.nx h.init = v.foldl h.nx h.init ↔ f u = f v) :
    Set.ncard {q | ∃ w, f w = q} = h.size := by
  have e : Set.ncard {q | q < h.size} = h.size := by
    have : {q | q < h.size} = ((Finset.range h.size : Finset Nat) : Set Nat) := by ext q; simp
    rw [this, Set.ncard_coe_finset, Finset.card_range]
  rw [← e]
  symm
  refine Set.ncard_congr (fun q hq => f (h1 q hq).choose) ?_ ?_ ?_
  · exact fun q hq => ⟨_, rfl⟩
  · intro a b ha hb hab
    have := (h3 _ _).2 hab
    rw [(h1 a ha).choose_spec, (h1 b hb).choose_spec] at this
    exact this
  · rintro q ⟨w, rfl⟩
    refine ⟨w.foldl h.nx h.init, h2 w, ?_⟩
    exact (h3 _ _).1 (h1 _ (h2 w)).choose_spec

theorem Graph.dump_lines {g : Graph} (hg : g.WF) {text : List Char} (h : g.dump = .ok text) : text.count '\n' = g.size := by
  rw [Graph.dump_ok hg] at h
  cases h
  have hn : ∀ q, '\n' ∉ g.dumpLine q := by
    intro q
    have := Graph.not_newline_showNat
    unfold Graph.dumpLine
    simp [this]
  have : ∀ k, (((List.range k).map g.dumpLine).flatMap (· ++ ['\n'])).count '\n' = k := by
    intro k
    induction k with
    | zero => rfl
    | succ k ih =>
      rw [List.range_succ, List.map_append, List.flatMap_append, List.count_append, ih]
      simp [List.count_eq_zero_of_not_mem (hn k)]
  exact this g.size

end Homfa
