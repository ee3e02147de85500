import Verif.Props.Determinize
import Verif.Proof.Queries
/-! Properties C09 - C13: complement, predecessors, depth tables, 64-bit transitions. -/

namespace Homfa

/-- **C09.** `negated()` succeeds, is well-formed and accepts exactly the words `g` rejects. -/
theorem C09_negated_language (g : Graph) (hg : g.WF) :
    ∃ n, g.negated = .ok n ∧ n.WF ∧ ∀ w, ∃ b, g.accepts w = .ok b ∧ n.accepts w = .ok (!b) := by
  obtain ⟨n, h1, h2, _, h4, h5, h6⟩ := Graph.negated_spec hg
  refine ⟨n, h1, h2, fun w => ⟨_, hg.accepts_eq w, ?_⟩⟩
  rw [h2.accepts_eq w]
  congr 1
  have hnx : n.nx = g.nx := by funext q b; simp [Graph.nx, h5]
  have hr := hg.run_lt hg.init_lt w
  show n.fin (w.foldl n.nx n.init) = !g.fin (w.foldl g.nx g.init)
  rw [hnx, h4, Graph.fin, h6]
  simp [hr]

/-- **C09 (involution).** Negating twice gives back the same automaton: same size, initial state, transitions and final
states (everything except the cached depth table, which is dropped). -/
theorem C09_negated_twice (g : Graph) (hg : g.WF) :
    ∃ n m, g.negated = .ok n ∧ n.negated = .ok m ∧ m = { g with statesAtDepth := [] } := by
  obtain ⟨n, h1, h2, h3, h4, h5, h6⟩ := Graph.negated_spec hg
  obtain ⟨m, k1, k2, k3, k4, k5, k6⟩ := Graph.negated_spec h2
  refine ⟨n, m, h1, k1, ?_⟩
  have hf : m.finals = g.finals := by
    rw [k6]
    refine SSorted.ext ((ssorted_range _).filter _) hg.fin_sorted (fun x => ?_)
    have hsz : n.size = g.size := by simp [Graph.size, h5]
    simp only [List.mem_filter, List.mem_range, hsz, Graph.fin, h6]
    constructor
    · rintro ⟨hx, h⟩
      simp [hx] at h
      exact h
    · intro h
      have hx := hg.closed.2 x h
      exact ⟨hx, by simp [h]⟩
  have e1 := k2.eq_built
  have e2 := hg.eq_built
  have e3 : ({ m with statesAtDepth := [] } : Graph) = m := by
    cases m; simp at k3; simp [k3]
  rw [e3] at e1
  rw [e1, e2, k4, h4, k5, h5, hf]

example : (do let n ← exGraph.negated; n.accepts [true, true]) = .ok false ∧ exGraph.accepts [true, true] = .ok true := by
  decide

/-- **C10.** `prev_states(q, b)` succeeds for every state `q` and lists, in strictly increasing order (hence without
repetition), exactly the states `p` of the graph with `next_state(p, b) = q`. -/
theorem C10_prev_states_inverse (g : Graph) (hg : g.WF) (q : Nat) (hq : q < g.size) (b : Bool) :
    ∃ l, g.prevStates q b = .ok l ∧ SSorted l ∧ ∀ p, p ∈ l ↔ g.nextState p b = .ok q := by
  refine ⟨_, hg.prevStates_ok hq b, (ssorted_range _).filter _, fun p => ?_⟩
  simp only [List.mem_filter, List.mem_range, decide_eq_true_eq]
  constructor
  · rintro ⟨hp, rfl⟩; exact Graph.WF.nextState_ok hp b
  · intro h
    by_cases hp : p < g.size
    · rw [Graph.WF.nextState_ok hp b] at h
      exact ⟨hp, by injection h⟩
    · unfold Graph.nextState at h
      rw [vat_ge (by simpa [Graph.size] using hp)] at h
      simp at h

example : exGraph.prevStates 0 false = .ok [0, 1, 2] ∧ exGraph.prevStates 2 true = .ok [1, 2] := by decide

/-- **C11.** After `reserve_states_at_depth(D)` (whatever the table held before), `states_at_depth(d)` is, for `d < D`,
the strictly increasing list of exactly the states reached from the initial state by some word of length `d`; for
`d ≥ D` it throws.  Nothing else of the graph changes. -/
theorem C11_states_at_depth (g : Graph) (hg : g.WF) (D : Nat) :
    ∃ g', g.reserveStatesAtDepth D = .ok g' ∧ { g' with statesAtDepth := g.statesAtDepth } = g ∧
      (∀ d < D, ∃ l, g'.statesAtDepthAt d = .ok l ∧ SSorted l ∧
        ∀ q, q ∈ l ↔ ∃ w : List Bool, w.length = d ∧ g.runWord g.initialState w = .ok q) ∧
      (∀ d, D ≤ d → g'.statesAtDepthAt d = .error .outOfRange) := by
  have hL : ∀ q ∈ [g.init], q < g.size := by
    intro q hq; simp at hq; subst hq; exact hg.init_lt
  refine ⟨_, Graph.reserve_ok hg D, rfl, ?_, ?_⟩
  · intro d hd
    refine ⟨g.levelSet [g.init] d, vat_map hd, Graph.sorted_levelSet (by simp) d, fun q => ?_⟩
    rw [hg.mem_levelSet hL]
    constructor
    · rintro ⟨p, hp, w, hw, rfl⟩
      simp at hp; subst hp
      exact ⟨w, hw, (hg.run_ok hg.init_lt w).1⟩
    · rintro ⟨w, hw, h⟩
      rw [show g.initialState = g.init from rfl, (hg.run_ok hg.init_lt w).1] at h
      exact ⟨g.init, by simp, w, hw, by injection h⟩
  · intro d hd
    exact vat_ge (by simpa using hd)

example : (do let g ← exGraph.reserveStatesAtDepth 3; g.statesAtDepthAt 1) = .ok [0, 1] ∧
    (do let g ← exGraph.reserveStatesAtDepth 3; g.statesAtDepthAt 2) = .ok [0, 1, 2] := by decide

/-- **C12.** `track_live_states(L, D)` returns `D + 1` lists; list 0 is `L` itself, list `d > 0` is the strictly
increasing list of exactly the states reached from a state of `L` by some word of length `d`. -/
theorem C12_track_live_states (g : Graph) (hg : g.WF) (L : List Nat) (hL : ∀ q ∈ L, q < g.size) (D : Nat) :
    ∃ r, g.trackLiveStates L D = .ok r ∧ r.length = D + 1 ∧ r[0]? = some L ∧
      ∀ d, 0 < d → d ≤ D → ∃ l, r[d]? = some l ∧ SSorted l ∧
        ∀ q, q ∈ l ↔ ∃ p ∈ L, ∃ w : List Bool, w.length = d ∧ g.runWord p w = .ok q := by
  refine ⟨_, Graph.trackLiveStates_ok hg hL D, by simp, rfl, ?_⟩
  intro d hd hdD
  obtain ⟨e, rfl⟩ : ∃ e, d = e + 1 := ⟨d - 1, by omega⟩
  have he : e < D := by omega
  have hL' : ∀ q ∈ sinsertAll [] L, q < g.size := by
    intro q hq; exact hL q (by simpa using hq)
  refine ⟨g.levelSet (sinsertAll [] L) (e + 1), by simp [he], Graph.sorted_levelSet (sorted_sinsertAll (by simp)) _, fun q => ?_⟩
  rw [hg.mem_levelSet hL']
  constructor
  · rintro ⟨p, hp, w, hw, rfl⟩
    have hp : p ∈ L := by simpa using hp
    exact ⟨p, hp, w, hw, (hg.run_ok (hL p hp) w).1⟩
  · rintro ⟨p, hp, w, hw, h⟩
    rw [(hg.run_ok (hL p hp) w).1] at h
    exact ⟨p, by simpa using hp, w, hw, by injection h⟩

example : exGraph.trackLiveStates [2, 0] 2 = .ok [[2, 0], [0, 1, 2], [0, 1, 2]] := by decide

/-- The full claim of C13 for a given length: bits 0..length-1 of the argument are read, low bit first. -/
def Transition64Claim (g : Graph) (length : Nat) : Prop :=
  ∀ q < g.size, ∀ input : BitVec 64,
    g.transition64 q input length = g.runWord q ((List.range length).map input.getLsbD)

/-- **C13 (partial).** `transition64` reads bits 0..length-1, low bit first, for every length up to 31.
Missing: lengths 32 to 64, for which the claim is false (see the two theorems below). -/
theorem C13_transition64_partial (g : Graph) (hg : g.WF) (length : Nat) (hl : length ≤ 31) :
    Transition64Claim g length := by
  intro q hq input
  rw [Graph.transition64_ok hg hq input hl, (hg.run_ok hq _).1]

/-- **C13 (violation at 32).** At length 32 the last step reads "some bit among 31..63 is set" instead of bit 31. -/
theorem C13_transition64_at_32 (g : Graph) (hg : g.WF) (q : Nat) (hq : q < g.size) (input : BitVec 64) :
    g.transition64 q input 32 =
      (do let r ← g.runWord q ((List.range 31).map input.getLsbD)
          g.nextState r (input >>> 31 != 0#64)) := by
  rw [Graph.transition64_32 hg hq input, (hg.run_ok hq _).1, Res.bind_ok, Graph.WF.nextState_ok (hg.run_lt hq _)]

/-- **C13 (violation, witness).** The claim is false at length 32 for a concrete graph. -/
theorem C13_transition64_claim_false_at_32 : ¬ Transition64Claim exGraph 32 := by
  intro h
  have h1 := h 0 (by decide) (1#64 <<< 32)
  rw [Graph.transition64_32 exGraph_wf (by decide)] at h1
  exact absurd h1 (by decide)

/-- **C13 (violation above 32).** For every length above 32 the shift is undefined behaviour. -/
theorem C13_transition64_ub_above_32 (g : Graph) (hg : g.WF) (q : Nat) (hq : q < g.size) (input : BitVec 64)
    (length : Nat) (hl : 32 < length) : g.transition64 q input length = .error .ub :=
  Graph.transition64_ub hg hq input hl

example : exGraph.transition64 0 0b110#64 3 = .ok 2 := by decide

end Homfa
