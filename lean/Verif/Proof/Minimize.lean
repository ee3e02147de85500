import Verif.Proof.Reach
/-! `minimized`: language preservation and minimality. -/

namespace Homfa
namespace Graph
variable {g : Graph}

theorem removed_run {m : Graph} {R : List Nat} (h0 : R[m.init]? = some g.init)
    (hnx : ∀ i q, R[i]? = some q → ∀ b, R[m.nx i b]? = some (g.nx q b)) (w : List Bool) :
    R[w.foldl m.nx m.init]? = some (w.foldl g.nx g.init) := by
  induction w using List.reverseRecOn with
  | nil => exact h0
  | append_singleton w b ih => simpa using hnx _ _ ih b

theorem removed_good (hg : g.WF) :
    ∃ m, g.removedUnreachable = .ok m ∧ m.WF ∧ m.statesAtDepth = [] ∧ (∀ w, m.dfa.accepts w = g.dfa.accepts w) ∧ (∀ q < m.size, m.Reach q) ∧
      ∃ R, SSorted R ∧ (∀ q, q ∈ R ↔ g.Reach q) ∧ m.size = R.length := by
  obtain ⟨m, R, h1, h2, hsd, h3, h4, h5, h6, h7, h8⟩ := removedUnreachable_spec hg
  have hrun := removed_run h6 h7
  refine ⟨m, h1, h2, hsd, ?_, ?_, R, h4, h5, h3⟩
  · intro w
    exact h8 _ _ (hrun w)
  · intro q hq
    rw [h3] at hq
    obtain ⟨w, hw⟩ := (h5 R[q]).1 (List.getElem_mem hq)
    refine ⟨w, ?_⟩
    have := hrun w
    rw [hw, ← List.getElem?_eq_getElem hq] at this
    have hlt : w.foldl m.nx m.init < R.length := by rw [← h3]; exact h2.run_lt h2.init_lt w
    exact (List.getElem?_inj hlt h4.nodup).1 this

theorem grouped_run {m : Graph} {φ : Nat → Nat} (hg : g.WF)
    (hnx : ∀ q < g.size, ∀ b, m.nx (φ q) b = φ (g.nx q b)) {q : Nat} (hq : q < g.size) (w : List Bool) :
    w.foldl m.nx (φ q) = φ (w.foldl g.nx q) := by
  induction w generalizing q with
  | nil => rfl
  | cons b w ih => simp only [List.foldl_cons]; rw [hnx q hq b]; exact ih (hg.nx_lt hq b)

theorem grouped_good (hg : g.WF) :
    ∃ m, g.groupedNondistinguishable = .ok m ∧ m.WF ∧ m.statesAtDepth = [] ∧ (∀ w, m.dfa.accepts w = g.dfa.accepts w) ∧
      (∀ a < m.size, ∀ b < m.size, a ≠ b → ∃ w, m.accFrom a w ≠ m.accFrom b w) ∧
      ((∀ q < g.size, g.Reach q) → ∀ q < m.size, m.Reach q) ∧
      ∃ φ : Nat → Nat, (∀ q < g.size, φ q < m.size) ∧ (∀ k < m.size, ∃ q < g.size, φ q = k) ∧
        (∀ q < g.size, ∀ w, m.accFrom (φ q) w = g.accFrom q w) ∧
        (∀ a < g.size, ∀ b < g.size, φ a = φ b ↔ g.Equiv a b) := by
  obtain ⟨m, φ, h1, h2, h3, h4, h5, h6, h7, h8, h9, _⟩ := grouped_spec hg
  have hacc : ∀ q, q < g.size → ∀ w, m.accFrom (φ q) w = g.accFrom q w := by
    intro q hq w
    unfold accFrom
    rw [grouped_run hg h8 hq w, h9 _ (hg.run_lt hq w)]
  refine ⟨m, h1, h2, h3, ?_, ?_, ?_, φ, h5, h6, hacc, h7⟩
  · intro w
    have := hacc g.init hg.init_lt w
    rw [← h4] at this; exact this
  · intro a ha b hb hne
    obtain ⟨p, hp, rfl⟩ := h6 a ha
    obtain ⟨q, hq, rfl⟩ := h6 b hb
    by_contra hno
    apply hne
    rw [h7 p hp q hq]
    intro w
    by_contra hw
    exact hno ⟨w, by rw [hacc p hp, hacc q hq]; exact hw⟩
  · intro hr k hk
    obtain ⟨q, hq, rfl⟩ := h6 k hk
    obtain ⟨w, rfl⟩ := hr q hq
    exact ⟨w, by rw [h4]; exact grouped_run hg h8 hg.init_lt w⟩

theorem minimized_good (hg : g.WF) :
    ∃ m, g.minimized = .ok m ∧ m.WF ∧ m.statesAtDepth = [] ∧ (∀ w, m.dfa.accepts w = g.dfa.accepts w) ∧ (∀ q < m.size, m.Reach q) ∧
      (∀ a < m.size, ∀ b < m.size, a ≠ b → ∃ w, m.accFrom a w ≠ m.accFrom b w) := by
  obtain ⟨r, r1, r2, _, r3, r4, _⟩ := removed_good hg
  obtain ⟨m, m1, m2, m3, m4, m5, m6, _⟩ := grouped_good r2
  refine ⟨m, ?_, m2, m3, fun w => (m4 w).trans (r3 w), m6 r4, m5⟩
  unfold minimized
  rw [r1, Res.bind_ok, m1]

/-- A trim, reduced automaton is minimal among all DFAs of its language. -/
theorem minimal_of_trim {m : Graph} (hr : ∀ q < m.size, m.Reach q)
    (hd : ∀ a < m.size, ∀ b < m.size, a ≠ b → ∃ w, m.accFrom a w ≠ m.accFrom b w) {n : Nat} (d : Spec.Dfa (Fin n))
    (h : ∀ w, m.dfa.accepts w = d.accepts w) : m.size ≤ n := by
  classical
  let word : Nat → List Bool := fun q => if hq : q < m.size then (hr q hq).choose else []
  have hword : ∀ q, q < m.size → (word q).foldl m.nx m.init = q := by
    intro q hq
    simp only [word, hq, dif_pos]
    exact (hr q hq).choose_spec
  let f : Nat → Nat := fun q => (d.run d.start (word q)).val
  have hinj : ∀ a, a < m.size → ∀ b, b < m.size → f a = f b → a = b := by
    intro a ha b hb e
    by_contra hne
    obtain ⟨w, hw⟩ := hd a ha b hb hne
    apply hw
    have e : d.run d.start (word a) = d.run d.start (word b) := Fin.ext e
    have key : ∀ q, q < m.size → m.accFrom q w = d.accept (d.run (d.run d.start (word q)) w) := by
      intro q hq
      have := h (word q ++ w)
      simp only [Spec.Dfa.accepts, Spec.Dfa.run, List.foldl_append] at this
      have e2 : (word q).foldl m.dfa.next m.dfa.start = q := hword q hq
      rw [e2] at this
      exact this
    rw [key a ha, key b hb, e]
  have hnd : ((List.range m.size).map f).Nodup := by
    rw [List.nodup_map_iff_inj_on List.nodup_range]
    intro a ha b hb e
    exact hinj a (by simpa using ha) b (by simpa using hb) e
  have := (List.subperm_of_subset hnd (l₂ := List.range n) (by
    intro x hx
    obtain ⟨q, _, rfl⟩ := List.mem_map.1 hx
    simp [f])).length_le
  simpa using this

end Graph
end Homfa
