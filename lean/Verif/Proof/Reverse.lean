import Verif.Proof.Nfa
/-! `Graph::reversed` and reversal of NFA tables. -/

namespace Homfa
open Spec

/-- Reversing a path. -/
theorem Spec.Path.append {σ : Type} {step : σ → Bool → σ → Prop} {p q r : σ} {u v : List Bool}
    (h1 : Path step p u q) (h2 : Path step q v r) : Path step p (u ++ v) r := by
  induction h1 with
  | nil => exact h2
  | cons hs _ ih => exact .cons hs (ih h2)

theorem Spec.Path.rev {σ : Type} {step step' : σ → Bool → σ → Prop} (h : ∀ p b q, step p b q → step' q b p)
    {p q : σ} {w : List Bool} (hp : Path step p w q) : Path step' q w.reverse p := by
  induction hp with
  | nil => exact .nil _
  | cons hs _ ih =>
    rw [List.reverse_cons]
    exact ih.append (.cons (h _ _ _ hs) (.nil _))

theorem nfaAccepts_rev {σ : Type} {I F : σ → Prop} {step step' : σ → Bool → σ → Prop}
    (h : ∀ p b q, step' q b p ↔ step p b q) (w : List Bool) :
    NfaAccepts F I step' w ↔ NfaAccepts I F step w.reverse := by
  constructor
  · rintro ⟨p, r, hp, hpath, hr⟩
    exact ⟨r, p, hr, hpath.rev (fun p b q hs => (h q b p).1 hs), hp⟩
  · rintro ⟨p, r, hp, hpath, hr⟩
    refine ⟨r, p, hr, ?_, hp⟩
    have := hpath.rev (step' := step') (fun p b q hs => (h p b q).2 hs)
    simpa using this

/-- A deterministic path. -/
theorem path_dfa {σ : Type} {step : σ → Bool → σ → Prop} {P : σ → Prop} {f : σ → Bool → σ}
    (hP : ∀ q b, P q → P (f q b)) (h : ∀ q b r, P q → (step q b r ↔ r = f q b)) {q r : σ} (hq : P q) {w : List Bool} :
    Path step q w r ↔ r = w.foldl f q := by
  induction w generalizing q with
  | nil => constructor
           · intro h; cases h; rfl
           · rintro rfl; exact .nil _
  | cons b w ih =>
    constructor
    · intro hp
      cases hp with
      | cons hs hp =>
        have := (h _ _ _ hq).1 hs
        subst this
        exact (ih (hP _ _ hq)).1 hp
    · intro e
      exact .cons ((h _ _ _ hq).2 rfl) ((ih (hP _ _ hq)).2 e)

namespace Graph

/-- The NFA table built by `reversed`. -/
def revTable (g : Graph) : NFADelta := (List.range g.size).map (fun q =>
  (q, (List.range g.size).filter (fun p => g.nx p false = q), (List.range g.size).filter (fun p => g.nx p true = q)))

theorem reversed_eq {g : Graph} (hg : g.WF) : g.reversed = fromNfa g.finals [g.init] g.revTable := by
  unfold reversed
  rw [mapM_ok (g := fun q => (q, (List.range g.size).filter (fun p => g.nx p false = q), (List.range g.size).filter (fun p => g.nx p true = q)))]
  · rfl
  · intro q hq
    have hq : q < g.size := by simpa [allStates] using hq
    rw [hg.prevStates_ok hq, Res.bind_ok, hg.prevStates_ok hq, Res.bind_ok]
    rfl

theorem reversed_step {g : Graph} (p : Nat) (b : Bool) (q : Nat) :
    tableStep g.revTable q b p ↔ q < g.size ∧ p < g.size ∧ q = g.nx p b := by
  unfold tableStep revTable
  by_cases hq : q < g.size
  · cases b <;> simp [hq, eq_comm]
  · simp [hq]

/-- `reversed` succeeds, and accepts the reversed language. -/
theorem reversed_spec {g : Graph} (hg : g.WF) :
    ∃ r, g.reversed = .ok r ∧ r.WF ∧ r.statesAtDepth = [] ∧ r.init = 0 ∧ (∀ q < r.size, ∃ w : List Bool, w.foldl r.nx r.init = q) ∧
      ∀ w, r.dfa.accepts w = g.dfa.accepts w.reverse := by
  rw [reversed_eq hg]
  have hr : FromNfa.InRange g.finals g.revTable := by
    intro p hp w q hpath
    have key : ∀ {p q : Nat} {w : List Bool}, Path (tableStep g.revTable) p w q → p < g.size → q < g.size := by
      intro p q w h
      induction h with
      | nil => exact id
      | cons hs _ ih => exact fun _ => ih ((reversed_step _ _ _).1 hs).2.1
    simpa [revTable] using key hpath (hg.closed.2 p hp)
  rcases FromNfa.fromNfa_total (fn := [g.init]) (dn := g.revTable) hg.fin_sorted with ⟨⟨r, h⟩, _⟩ | ⟨_, h⟩
  · obtain ⟨hwf, hsd, hin, _, _, hreach, _, hacc⟩ := FromNfa.fromNfa_good hg.fin_sorted h
    refine ⟨r, h, hwf, hsd, hin, hreach, fun w => ?_⟩
    rw [Bool.eq_iff_iff, hacc w]
    have hst : tableStep g.revTable = fun q b p => q < g.size ∧ p < g.size ∧ q = g.nx p b := by
      funext q b p; exact propext (reversed_step p b q)
    rw [hst, nfaAccepts_rev (I := (· ∈ [g.init])) (F := (· ∈ g.finals)) (step := fun p b q => q < g.size ∧ p < g.size ∧ q = g.nx p b) (fun _ _ _ => Iff.rfl)]
    have hp : ∀ r, Path (fun p b q => q < g.size ∧ p < g.size ∧ q = g.nx p b) g.init w.reverse r ↔ r = w.reverse.foldl g.nx g.init := by
      intro r
      refine path_dfa (P := (· < g.size)) (fun q b hq => hg.nx_lt hq b) (fun q b r hq => ?_) hg.init_lt
      constructor
      · exact fun h => h.2.2
      · rintro rfl; exact ⟨hg.nx_lt hq b, hq, rfl⟩
    constructor
    · rintro ⟨p, r, h1, hpath, hr⟩
      have h1 : p = g.init := by simpa using h1
      subst h1
      rw [(hp r).1 hpath] at hr
      simpa [dfa, Dfa.accepts, Dfa.run, fin] using hr
    · intro h
      refine ⟨g.init, w.reverse.foldl g.nx g.init, by simp, (hp _).2 rfl, ?_⟩
      simpa [dfa, Dfa.accepts, Dfa.run, fin] using h
  · exact absurd hr h

end Graph
end Homfa
