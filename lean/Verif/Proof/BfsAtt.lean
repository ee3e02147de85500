import Verif.Proof.Bfs
import Verif.Proof.Dump
/-! # Graphs in order, through the AT&T format -/

namespace Homfa
namespace Graph

variable {g : Graph}

/-- Exporting a graph in order, all of whose states can be reached, and importing it again gives the graph. -/
theorem InOrder.att (hg : g.InOrder) (hw : g.WF) (hr : ∀ q < g.size, g.Reach q) (hsz : g.size ≤ 2 ^ 31) :
    fromAttIstream (((List.range g.size).flatMap g.attLinesOf).flatMap (· ++ ['\n'])) = .ok { g with statesAtDepth := [] } := by
  classical
  obtain ⟨h, h1, h2, h3, h4, h5⟩ := fromAtt_dump hw hsz
  have hk := h1
  unfold fromAttIstream at hk
  obtain ⟨p, _, hp⟩ := Res.bind_eq_ok.1 hk
  have hs : SSorted [0] := List.pairwise_singleton _ _
  have ho := FromNfa.fromNfa_inOrder hs hp
  have hd : h.statesAtDepth = [] := (FromNfa.fromNfa_good hs hp).2.1
  rw [← hg.init] at h3 h5
  let φ : Nat → Nat := fun q => if hq : q < g.size then ((hr q hq).choose).foldl h.nx h.init else 0
  have hφ : ∀ w : List Bool, φ (w.foldl g.nx g.init) = w.foldl h.nx h.init := by
    intro w
    have hq := hw.run_lt hw.init_lt w
    simp only [φ, dif_pos hq]
    exact (h5 _ _).2 (hr _ hq).choose_spec
  have hlt : ∀ q < g.size, φ q < h.size := by
    intro q hq
    obtain ⟨w, rfl⟩ := hr q hq
    rw [hφ]
    exact h2.run_lt h2.init_lt w
  have hinj : ∀ a < g.size, ∀ b < g.size, φ a = φ b → a = b := by
    intro a ha b hb e
    obtain ⟨u, rfl⟩ := hr a ha
    obtain ⟨v, rfl⟩ := hr b hb
    rw [hφ, hφ] at e
    exact (h5 u v).1 e
  have hnx : ∀ q < g.size, ∀ b, h.nx (φ q) b = φ (g.nx q b) := by
    intro q hq b
    obtain ⟨w, rfl⟩ := hr q hq
    have := hφ (w ++ [b])
    rw [List.foldl_append, List.foldl_append] at this
    rw [hφ]
    exact this.symm
  have hid := hg.rename_id ho hw hr hlt hinj (hφ []) hnx
  have hrun : ∀ w : List Bool, w.foldl h.nx h.init = w.foldl g.nx g.init := fun w => by
    rw [← hφ, hid _ (hw.run_lt hw.init_lt w)]
  have hsize : h.size = g.size := by
    apply Nat.le_antisymm
    · refine Nat.le_of_not_lt fun hlt' => ?_
      obtain ⟨w, hw'⟩ := h4 g.size hlt'
      rw [hrun] at hw'
      have := hw.run_lt hw.init_lt w
      omega
    · exact inj_le hlt hinj
  have he := WF.ext hw h2 hsize (by rw [ho.init, hg.init])
    (fun q hq b => by
      have := hnx q hq b
      rwa [hid q hq, hid _ (hw.nx_lt hq b)] at this)
    (fun q hq => by
      obtain ⟨w, rfl⟩ := hr q hq
      have := h3 w
      rw [← hrun w]
      exact this.trans (by rw [hrun w]))
  rw [h1, ← he]
  cases h
  simp_all

end Graph
end Homfa
