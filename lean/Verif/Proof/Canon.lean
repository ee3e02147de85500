import Verif.Proof.Minimize
import Verif.Proof.Group
import Verif.Proof.Reverse
/-! `minimized` is idempotent and canonical; the subset construction on a reversed automaton gives a minimal one. -/

namespace Homfa
namespace Graph
open Homfa.Spec
variable {g : Graph}

/-- Two well-formed graphs with the same states, transitions, initial and final states are equal. -/
theorem WF.ext {g m : Graph} (hg : g.WF) (hm : m.WF) (hs : m.size = g.size) (hi : m.init = g.init) (hn : ∀ q < g.size, ∀ b, m.nx q b = g.nx q b)
    (hf : ∀ q < g.size, m.fin q = g.fin q) : { m with statesAtDepth := [] } = { g with statesAtDepth := [] } := by
  rw [hm.eq_built, hg.eq_built, hi]
  have hd : m.delta = g.delta := by
    rw [hm.delta_eq, hg.delta_eq, hs]
    refine List.map_congr_left fun q hq => ?_
    rw [hn q (List.mem_range.1 hq), hn q (List.mem_range.1 hq)]
  have hfs : m.finals = g.finals := by
    refine hm.fin_sorted.ext hg.fin_sorted fun q => ?_
    have h1 : q ∈ m.finals ↔ m.fin q = true := by simp [fin]
    have h2 : q ∈ g.finals ↔ g.fin q = true := by simp [fin]
    rw [h1, h2]
    by_cases hq : q < g.size
    · rw [hf q hq]
    · constructor
      · intro h; exact absurd (hs ▸ hm.fin_lt h) hq
      · intro h; exact absurd (hg.fin_lt h) hq
  rw [hd, hfs]

/-- An injection of the numbers below `a` into the numbers below `b`. -/
theorem inj_le {a b : Nat} {f : Nat → Nat} (h : ∀ q < a, f q < b) (hi : ∀ p < a, ∀ q < a, f p = f q → p = q) : a ≤ b := by
  have hnd : ((List.range a).map f).Nodup := by
    rw [List.nodup_map_iff_inj_on List.nodup_range]
    intro p hp q hq e
    exact hi p (by simpa using hp) q (by simpa using hq) e
  have := (List.subperm_of_subset hnd (l₂ := List.range b) (by
    intro x hx
    obtain ⟨q, hq, rfl⟩ := List.mem_map.1 hx
    simpa using h q (by simpa using hq))).length_le
  simpa using this

/-- On a graph without unreachable states `removed_unreachable` is a copy. -/
theorem removed_id (hg : g.WF) (hr : ∀ q < g.size, g.Reach q) : g.removedUnreachable = .ok { g with statesAtDepth := [] } := by
  obtain ⟨m, R, h1, h2, hsd, h3, h4, h5, h6, h7, h8⟩ := removedUnreachable_spec hg
  have hR : R = List.range g.size := h4.ext (ssorted_range _) fun q => by
    rw [h5, List.mem_range]; exact ⟨hg.reach_lt, hr q⟩
  subst hR
  have hs : m.size = g.size := by rw [h3, List.length_range]
  have key : ∀ {i q : Nat}, (List.range g.size)[i]? = some q → i = q := by
    intro i q h
    obtain ⟨hl, he⟩ := List.getElem?_eq_some_iff.1 h
    rw [List.getElem_range] at he; exact he
  have key2 : ∀ {q : Nat}, q < g.size → (List.range g.size)[q]? = some q := fun hq => by
    rw [List.getElem?_eq_getElem (by simpa using hq), List.getElem_range]
  rw [h1]
  congr 1
  rw [← WF.ext hg h2 hs (key h6) (fun q hq b => key (h7 q q (key2 hq) b)) (fun q hq => h8 q q (key2 hq)), ← hsd]

/-- On a graph without equivalent states `grouped_nondistinguishable` is a copy. -/
theorem grouped_id (hg : g.WF) (hd : ∀ a < g.size, ∀ b < g.size, g.Equiv a b → a = b) :
    g.groupedNondistinguishable = .ok { g with statesAtDepth := [] } := by
  obtain ⟨m, φ, h1, h2, h3, h4, h5, h6, h7, h8, h9, h10⟩ := grouped_spec hg
  have hinj : ∀ a < g.size, ∀ b < g.size, φ a = φ b → a = b := fun a ha b hb h => hd a ha b hb ((h7 a ha b hb).1 h)
  have hmono : ∀ a < g.size, ∀ b < g.size, φ a < φ b → a < b := by
    intro a ha b hb h
    obtain ⟨q, hq, he, hlt⟩ := h10 a ha b hb h
    rw [← hinj q hq a ha he]
    exact hlt b hb rfl
  have hid : ∀ q < g.size, φ q = q := by
    intro q
    induction q using Nat.strong_induction_on with
    | _ q ih =>
      intro hq
      rcases Nat.lt_trichotomy (φ q) q with h | h | h
      · have := ih (φ q) h (by omega)
        have := hinj _ (by omega) q hq this
        omega
      · exact h
      · -- `q` itself is the image of some state, which is neither smaller nor larger than `q`
        obtain ⟨p, hp, he⟩ := h6 q (lt_trans h (h5 q hq))
        have h1 : p < q := hmono p hp q hq (by omega)
        have := ih p h1 hp
        omega
  have hs : m.size = g.size := by
    apply Nat.le_antisymm
    · by_contra hgt
      obtain ⟨q, hq, he⟩ := h6 g.size (by omega)
      rw [hid q hq] at he; omega
    · by_contra hgt
      have hq : m.size < g.size := by omega
      have := h5 m.size hq
      rw [hid _ hq] at this; omega
  rw [h1]
  congr 1
  rw [← WF.ext hg h2 hs (by rw [h4, hid _ hg.init_lt]) (fun q hq b => by
    have := h8 q hq b
    rw [hid q hq, hid _ (hg.nx_lt hq b)] at this; exact this) (fun q hq => by
    have := h9 q hq
    rw [hid q hq] at this; exact this), ← h3]

theorem minimized_id (hg : g.WF) (hr : ∀ q < g.size, g.Reach q)
    (hd : ∀ a < g.size, ∀ b < g.size, a ≠ b → ∃ w, g.accFrom a w ≠ g.accFrom b w) (hs : g.statesAtDepth = []) : g.minimized = .ok g := by
  have he : { g with statesAtDepth := [] } = g := by cases g; simp_all
  rw [minimized, removed_id hg hr, Res.bind_ok, he, grouped_id hg, he]
  intro a ha b hb h
  by_contra hne
  obtain ⟨w, hw⟩ := hd a ha b hb hne
  exact hw (h w)

/-- The states of two trim reduced graphs of the same language correspond one to one. -/
theorem iso_of_trim {m k : Graph} (hm : m.WF) (hk : k.WF) (hmr : ∀ q < m.size, m.Reach q)
    (hmd : ∀ a < m.size, ∀ b < m.size, a ≠ b → ∃ w, m.accFrom a w ≠ m.accFrom b w)
    (hkd : ∀ a < k.size, ∀ b < k.size, a ≠ b → ∃ w, k.accFrom a w ≠ k.accFrom b w)
    (hl : ∀ w, m.dfa.accepts w = k.dfa.accepts w) :
    ∃ φ : Nat → Nat, (∀ q < m.size, φ q < k.size) ∧ (∀ w : List Bool, φ (w.foldl m.nx m.init) = w.foldl k.nx k.init) ∧
      (∀ a < m.size, ∀ b < m.size, φ a = φ b → a = b) ∧ (∀ q < m.size, ∀ b, k.nx (φ q) b = φ (m.nx q b)) ∧ (∀ q < m.size, k.fin (φ q) = m.fin q) := by
  classical
  let word : Nat → List Bool := fun q => if hq : q < m.size then (hmr q hq).choose else []
  have hword : ∀ q, q < m.size → (word q).foldl m.nx m.init = q := by
    intro q hq
    simp only [word, hq, dif_pos]
    exact (hmr q hq).choose_spec
  let φ : Nat → Nat := fun q => (word q).foldl k.nx k.init
  have hacc : ∀ u w : List Bool, m.accFrom (u.foldl m.nx m.init) w = k.accFrom (u.foldl k.nx k.init) w := by
    intro u w
    have := hl (u ++ w)
    simpa [dfa, Dfa.accepts, Dfa.run, List.foldl_append, accFrom] using this
  have hφlt : ∀ q, φ q < k.size := fun q => hk.run_lt hk.init_lt _
  have hφ : ∀ w : List Bool, φ (w.foldl m.nx m.init) = w.foldl k.nx k.init := by
    intro w
    by_contra hne
    obtain ⟨v, hv⟩ := hkd _ (hφlt _) _ (hk.run_lt hk.init_lt w) hne
    apply hv
    rw [← hacc w v, ← hacc (word (w.foldl m.nx m.init)) v, hword _ (hm.run_lt hm.init_lt w)]
  refine ⟨φ, fun q _ => hφlt q, hφ, ?_, ?_, ?_⟩
  · intro a ha b hb h
    by_contra hne
    obtain ⟨v, hv⟩ := hmd a ha b hb hne
    apply hv
    have h1 := hacc (word a) v
    have h2 := hacc (word b) v
    rw [hword a ha] at h1
    rw [hword b hb] at h2
    rw [h1, h2]
    exact congrArg (fun s => k.accFrom s v) h
  · intro q hq b
    have h1 := hφ (word q ++ [b])
    rw [List.foldl_append, hword q hq, List.foldl_append] at h1
    exact h1.symm
  · intro q hq
    have := hacc (word q) []
    rw [hword q hq] at this
    exact this.symm

/-- The states of `reversed` of a graph without unreachable states are pairwise distinguishable (Brzozowski). -/
theorem reversed_reduced (hg : g.WF) (hr : ∀ q < g.size, g.Reach q) {r : Graph} (h : g.reversed = .ok r) :
    ∀ a < r.size, ∀ b < r.size, a ≠ b → ∃ w, r.accFrom a w ≠ r.accFrom b w := by
  obtain ⟨r', h', _, _, _, _, hlang⟩ := reversed_spec hg
  rw [h] at h'; cases h'
  rw [reversed_eq hg] at h
  obtain ⟨_, _, _, _, _, hreach, hsets, _⟩ := FromNfa.fromNfa_good hg.fin_sorted h
  intro a ha b hb hne
  obtain ⟨u, rfl⟩ := hreach a ha
  obtain ⟨v, rfl⟩ := hreach b hb
  by_contra hno
  apply hne
  rw [hsets]
  refine (FromNfa.sorted_runSet hg.fin_sorted u).ext (FromNfa.sorted_runSet hg.fin_sorted v) fun x => ?_
  have hst : tableStep g.revTable = fun q b p => q < g.size ∧ p < g.size ∧ q = g.nx p b := by
    funext q b p; exact propext (reversed_step p b q)
  have hmem : ∀ u : List Bool, x ∈ FromNfa.runSet g.revTable g.finals u ↔ x < g.size ∧ g.accFrom x u.reverse = true := by
    intro u
    rw [FromNfa.mem_runSet, hst]
    have hp : x < g.size → ∀ s, Path (fun p b q => q < g.size ∧ p < g.size ∧ q = g.nx p b) x u.reverse s ↔ s = u.reverse.foldl g.nx x := by
      intro hx s
      refine path_dfa (P := (· < g.size)) (fun q b hq => hg.nx_lt hq b) (fun q b r hq => ?_) hx
      constructor
      · exact fun h => h.2.2
      · rintro rfl; exact ⟨hg.nx_lt hq b, hq, rfl⟩
    constructor
    · rintro ⟨p, hpf, hpath⟩
      have hx : x < g.size := by
        have key : ∀ {p q : Nat} {w : List Bool}, Path (fun q b p => q < g.size ∧ p < g.size ∧ q = g.nx p b) p w q → p < g.size → q < g.size := by
          intro p q w h
          induction h with
          | nil => exact id
          | cons hs _ ih => exact fun _ => ih hs.2.1
        exact key hpath (hg.closed.2 p hpf)
      have := hpath.rev (step' := fun p b q => q < g.size ∧ p < g.size ∧ q = g.nx p b) (fun _ _ _ h => h)
      rw [hp hx] at this
      subst this
      exact ⟨hx, by simpa [accFrom, fin] using hpf⟩
    · rintro ⟨hx, hf⟩
      refine ⟨u.reverse.foldl g.nx x, by simpa [accFrom, fin] using hf, ?_⟩
      have := ((hp hx _).2 rfl).rev (step' := fun q b p => q < g.size ∧ p < g.size ∧ q = g.nx p b) (fun _ _ _ h => h)
      rwa [List.reverse_reverse] at this
  rw [hmem, hmem]
  refine and_congr_right fun hx => ?_
  obtain ⟨t, rfl⟩ := hr x hx
  have key : ∀ u : List Bool, g.accFrom (t.foldl g.nx g.init) u.reverse = r.accFrom (u.foldl r.nx r.init) t.reverse := by
    intro u
    have := hlang (u ++ t.reverse)
    rw [List.reverse_append, List.reverse_reverse] at this
    simpa [dfa, Dfa.accepts, Dfa.run, List.foldl_append, accFrom] using this.symm
  rw [key, key]
  by_contra hh
  exact hno ⟨t.reverse, fun he => hh (by rw [he])⟩

end Graph
end Homfa
