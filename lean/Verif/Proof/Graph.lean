import Verif.Model.Graph
import Verif.Proof.Cpp
import Verif.Spec.Automata
import Verif.Spec.Graph
/-! Basic facts about the `Graph` object. -/

namespace Homfa

/-- A `std::vector` of length `n` given by a function. -/
theorem pushAt_map {n i x : Nat} {f : Nat → List Nat} (h : i < n) :
    pushAt ((List.range n).map f) i x =
      .ok ((List.range n).map (fun q => if q = i then f q ++ [x] else f q)) := by
  unfold pushAt
  rw [vat_lt (by simpa using h), Res.bind_ok, vset_lt (by simpa using h)]
  congr 1
  apply List.ext_getElem <;> simp
  intro j h1
  rw [List.getElem_set]
  split
  · subst_vars; simp
  · rw [if_neg (by omega)]; simp

theorem vset_map {α : Type _} {n i : Nat} {f : Nat → α} {x : α} (h : i < n) :
    vset ((List.range n).map f) i x = .ok ((List.range n).map (fun q => if q = i then x else f q)) := by
  rw [vset_lt (by simpa using h)]
  congr 1
  apply List.ext_getElem <;> simp
  intro j h1
  rw [List.getElem_set]
  split
  · subst_vars; simp
  · rw [if_neg (by omega)]; simp

theorem vat_map {α : Type _} {n i : Nat} {f : Nat → α} (h : i < n) :
    vat ((List.range n).map f) i = .ok (f i) := by
  rw [vat_lt (by simpa using h)]; simp

theorem replicate_eq_map {α : Type _} (n : Nat) (x : α) : List.replicate n x = (List.range n).map (fun _ => x) := by
  apply List.ext_getElem <;> simp

namespace Graph

/-- What the constructor computes when it does not throw. -/
def built (init : Nat) (finals : List Nat) (delta : List (Nat × Nat × Nat)) : Graph where
  delta := delta
  parents0 := (List.range delta.length).map (fun q => (delta.filter (fun t => t.2.1 = q)).map (·.1))
  parents1 := (List.range delta.length).map (fun q => (delta.filter (fun t => t.2.2 = q)).map (·.1))
  statesAtDepth := []
  finals := finals
  finalVec := (List.range delta.length).map (fun q => decide (q ∈ finals))
  init := init

/-- The condition under which the constructor does not throw. -/
def Closed (finals : List Nat) (delta : List (Nat × Nat × Nat)) : Prop :=
  (∀ t ∈ delta, t.2.1 < delta.length ∧ t.2.2 < delta.length) ∧ ∀ q ∈ finals, q < delta.length

theorem make_ok {init : Nat} {finals : List Nat} {delta : List (Nat × Nat × Nat)} (h : Closed finals delta) :
    make init finals delta = .ok (built init finals delta) := by
  obtain ⟨h1, h2⟩ := h
  obtain ⟨ps, hps, hI⟩ := foldlM_inv
    (fun (pre : List (Nat × Nat × Nat)) (ps : List (List Nat) × List (List Nat)) =>
      ps.1 = (List.range delta.length).map (fun q => (pre.filter (fun t => t.2.1 = q)).map (·.1)) ∧
      ps.2 = (List.range delta.length).map (fun q => (pre.filter (fun t => t.2.2 = q)).map (·.1)))
    (f := fun (ps : List (List Nat) × List (List Nat)) (t : Nat × Nat × Nat) => do
      let p0 ← pushAt ps.1 t.2.1 t.1
      let p1 ← pushAt ps.2 t.2.2 t.1
      pure (p0, p1))
    delta (b := (List.replicate delta.length [], List.replicate delta.length []))
    (by simp [replicate_eq_map]) (by
      intro pre t post ps hd ⟨e1, e2⟩
      have ht : t ∈ delta := by rw [hd]; simp
      rw [e1, e2, pushAt_map (h1 t ht).1, Res.bind_ok, pushAt_map (h1 t ht).2, Res.bind_ok]
      refine ⟨_, rfl, ?_, ?_⟩
      · apply List.map_congr_left
        intro q _
        by_cases hq : q = t.2.1
        · simp [hq]
        · simp [hq, Ne.symm hq]
      · apply List.map_congr_left
        intro q _
        by_cases hq : q = t.2.2
        · simp [hq]
        · simp [hq, Ne.symm hq])
  obtain ⟨fv, hfv, hF⟩ := foldlM_inv
    (fun (pre : List Nat) (v : List Bool) => v = (List.range delta.length).map (fun q => decide (q ∈ pre)))
    (f := fun v q => vset v q true) finals (b := List.replicate delta.length false)
    (by simp [replicate_eq_map]) (by
      intro pre q post v hd e
      rw [e, vset_map (h2 q (by rw [hd]; simp))]
      refine ⟨_, rfl, ?_⟩
      apply List.map_congr_left
      intro x _
      by_cases hx : x = q <;> simp [hx])
  unfold make
  rw [hps, Res.bind_ok, hfv, Res.bind_ok]
  obtain ⟨e1, e2⟩ := hI
  simp only [built, Res.pure_eq, e1, e2, hF]

theorem pushAt_length {v w : List (List Nat)} {i x : Nat} (h : pushAt v i x = .ok w) :
    i < v.length ∧ w.length = v.length := by
  unfold pushAt at h
  obtain ⟨r, h1, h2⟩ := Res.bind_eq_ok.1 h
  obtain ⟨h3, h4⟩ := vset_eq_ok.1 h2
  exact ⟨h3, by simp [h4]⟩

theorem pushAt_err {v : List (List Nat)} {i x : Nat} {e : Err} (h : pushAt v i x = .error e) : e = .outOfRange := by
  unfold pushAt at h
  rcases Res.bind_eq_err.1 h with h | ⟨r, _, h⟩
  · exact vat_err h
  · exact vset_err h

theorem make_err {init : Nat} {finals : List Nat} {delta : List (Nat × Nat × Nat)} {e : Err}
    (h : make init finals delta = .error e) : e = .outOfRange := by
  unfold make at h
  rcases Res.bind_eq_err.1 h with h | ⟨ps, _, h⟩
  · obtain ⟨b, x, _, h⟩ := foldlM_err h
    rcases Res.bind_eq_err.1 h with h | ⟨r, _, h⟩
    · exact pushAt_err h
    · rcases Res.bind_eq_err.1 h with h | ⟨r, _, h⟩
      · exact pushAt_err h
      · simp [Res.pure_eq] at h
  · rcases Res.bind_eq_err.1 h with h | ⟨r, _, h⟩
    · obtain ⟨b, x, _, h⟩ := foldlM_err h
      exact vset_err h
    · simp [Res.pure_eq] at h

theorem make_ok_iff {init : Nat} {finals : List Nat} {delta : List (Nat × Nat × Nat)} {g : Graph} :
    make init finals delta = .ok g ↔ Closed finals delta ∧ g = built init finals delta := by
  constructor
  · intro h
    suffices hc : Closed finals delta by
      refine ⟨hc, ?_⟩
      rw [make_ok hc] at h
      cases h; rfl
    unfold make at h
    obtain ⟨ps, h1, h⟩ := Res.bind_eq_ok.1 h
    obtain ⟨fv, h2, h⟩ := Res.bind_eq_ok.1 h
    refine ⟨?_, ?_⟩
    · have := foldlM_ok_inv (fun (pre : List (Nat × Nat × Nat)) (ps : List (List Nat) × List (List Nat)) =>
        ps.1.length = delta.length ∧ ps.2.length = delta.length ∧
        ∀ t ∈ pre, t.2.1 < delta.length ∧ t.2.2 < delta.length) h1 (by simp) (by
          intro pre t post ps ps' hd ⟨e1, e2, e3⟩ hstep
          obtain ⟨p0, hp0, hstep⟩ := Res.bind_eq_ok.1 hstep
          obtain ⟨p1, hp1, hstep⟩ := Res.bind_eq_ok.1 hstep
          cases hstep
          have a := pushAt_length hp0
          have b := pushAt_length hp1
          refine ⟨by simp [a.2, e1], by simp [b.2, e2], ?_⟩
          intro t' ht'
          rcases List.mem_append.1 ht' with h | h
          · exact e3 t' h
          · simp at h; subst h; exact ⟨e1 ▸ a.1, e2 ▸ b.1⟩)
      exact this.2.2
    · have := foldlM_ok_inv (fun (pre : List Nat) (v : List Bool) =>
        v.length = delta.length ∧ ∀ q ∈ pre, q < delta.length) h2 (by simp) (by
          intro pre q post v v' hd ⟨e1, e2⟩ hstep
          obtain ⟨a, rfl⟩ := vset_eq_ok.1 hstep
          refine ⟨by simp [e1], ?_⟩
          intro q' hq'
          rcases List.mem_append.1 hq' with h | h
          · exact e2 q' h
          · simp at h; subst h; exact e1 ▸ a)
      exact this.2
  · rintro ⟨h, rfl⟩
    exact make_ok h

/-- next state as a total function (meaningful for `q < g.size`) -/
def nx (g : Graph) (q : Nat) (b : Bool) : Nat := if b then (g.delta.getD q (0, 0, 0)).2.2 else (g.delta.getD q (0, 0, 0)).2.1

/-- finality as a total function -/
def fin (g : Graph) (q : Nat) : Bool := decide (q ∈ g.finals)

/-- The DFA denoted by a graph. -/
def dfa (g : Graph) : Spec.Dfa Nat := { start := g.init, next := g.nx, accept := g.fin }

namespace WF
variable {g : Graph} (hg : g.WF)
include hg

theorem closed : Closed g.finals g.delta := (make_ok_iff.1 hg.built).1

theorem eq_built : { g with statesAtDepth := [] } = Graph.built g.init g.finals g.delta := (make_ok_iff.1 hg.built).2

theorem finalVec_eq : g.finalVec = (List.range g.size).map g.fin := congrArg finalVec hg.eq_built
theorem parents0_eq : g.parents0 = (List.range g.size).map (fun q => (g.delta.filter (fun t => t.2.1 = q)).map (·.1)) :=
  congrArg parents0 hg.eq_built
theorem parents1_eq : g.parents1 = (List.range g.size).map (fun q => (g.delta.filter (fun t => t.2.2 = q)).map (·.1)) :=
  congrArg parents1 hg.eq_built

omit hg in
theorem nextState_ok {q : Nat} (h : q < g.size) (b : Bool) : g.nextState q b = .ok (g.nx q b) := by
  unfold nextState nx
  rw [vat_lt h, Res.bind_ok]
  simp only [Res.pure_eq, List.getD_eq_getElem?_getD, List.getElem?_eq_getElem (show q < g.delta.length from h), Option.getD_some]
  rfl

theorem nx_lt {q : Nat} (h : q < g.size) (b : Bool) : g.nx q b < g.size := by
  unfold nx
  simp only [List.getD_eq_getElem?_getD, List.getElem?_eq_getElem (show q < g.delta.length from h), Option.getD_some]
  have := hg.closed.1 (g.delta[q]'h) (List.getElem_mem _)
  cases b
  · exact this.1
  · exact this.2

theorem isFinalState_ok {q : Nat} (h : q < g.size) : g.isFinalState q = .ok (g.fin q) := by
  unfold isFinalState
  rw [hg.finalVec_eq, vat_map h]

theorem fin_lt {q : Nat} (h : g.fin q = true) : q < g.size := hg.closed.2 q (by simpa [fin] using h)

theorem delta_getElem {q : Nat} (h : q < g.size) : g.delta[q]'h = (q, g.nx q false, g.nx q true) := by
  have h' : g.delta[q]? = some (g.delta[q]'h) := List.getElem?_eq_getElem h
  have := hg.idx q _ h'
  unfold nx
  simp only [List.getD_eq_getElem?_getD, h', Option.getD_some]
  ext <;> simp [this]

theorem delta_eq : g.delta = (List.range g.size).map (fun q => (q, g.nx q false, g.nx q true)) := by
  apply List.ext_getElem
  · simp [size]
  · intro i h1 h2
    rw [hg.delta_getElem h1]; simp

theorem run_ok {q : Nat} (h : q < g.size) (w : List Bool) :
    g.runWord q w = .ok (w.foldl g.nx q) ∧ w.foldl g.nx q < g.size :=
  foldlM_pure (· < g.size) h (fun _ b _ hq => ⟨nextState_ok hq b, hg.nx_lt hq b⟩)

theorem run_lt {q : Nat} (h : q < g.size) (w : List Bool) : w.foldl g.nx q < g.size := (hg.run_ok h w).2

theorem accepts_eq (w : List Bool) : g.accepts w = .ok (g.dfa.accepts w) := by
  unfold accepts
  obtain ⟨h1, h2⟩ := hg.run_ok hg.init_lt w
  rw [show g.initialState = g.init from rfl, h1, Res.bind_ok, hg.isFinalState_ok h2]
  rfl

theorem prevStates_ok {q : Nat} (h : q < g.size) (b : Bool) :
    g.prevStates q b = .ok ((List.range g.size).filter (fun p => g.nx p b = q)) := by
  have key : ∀ (f : Nat × Nat × Nat → Nat) (F : Nat → Nat), (∀ p, f (p, g.nx p false, g.nx p true) = F p) →
      (g.delta.filter (fun t => f t = q)).map (·.1) = (List.range g.size).filter (fun p => F p = q) := by
    intro f F hf
    rw [hg.delta_eq, List.filter_map, List.map_map]
    have : ((fun t : Nat × Nat × Nat => t.1) ∘ fun q => (q, g.nx q false, g.nx q true)) = id := rfl
    rw [this, List.map_id]
    congr 1
    funext p
    simp [hf]
  unfold prevStates
  cases b
  · simp only [Bool.false_eq_true, if_false]
    rw [hg.parents0_eq, vat_map h, key (fun t => t.2.1) (fun p => g.nx p false) (fun _ => rfl)]
  · simp only [if_true]
    rw [hg.parents1_eq, vat_map h, key (fun t => t.2.2) (fun p => g.nx p true) (fun _ => rfl)]

end WF

/-- Constructor applied to a table given by functions. -/
theorem make_wf {init n : Nat} {finals : List Nat} {f0 f1 : Nat → Nat}
    (hi : init < n) (hf : ∀ q ∈ finals, q < n) (hs : SSorted finals)
    (h0 : ∀ q < n, f0 q < n) (h1 : ∀ q < n, f1 q < n) :
    ∃ g, make init finals ((List.range n).map (fun q => (q, f0 q, f1 q))) = .ok g ∧ g.WF ∧ g.size = n ∧ g.init = init ∧
      g.finals = finals ∧ g.statesAtDepth = [] ∧ (∀ q < n, g.nx q false = f0 q ∧ g.nx q true = f1 q) := by
  have hc : Closed finals ((List.range n).map (fun q => (q, f0 q, f1 q))) := by
    refine ⟨?_, by simpa using hf⟩
    intro t ht
    obtain ⟨q, hq, rfl⟩ := List.mem_map.1 ht
    have hq := List.mem_range.1 hq
    simpa using ⟨h0 q hq, h1 q hq⟩
  refine ⟨_, make_ok hc, ⟨make_ok hc, ?_, by simpa [built, size] using hi, hs⟩, by simp [built, size], rfl, rfl, rfl, ?_⟩
  · intro i t h
    simp only [built, List.getElem?_map, Option.map_eq_some_iff] at h
    obtain ⟨q, hq, rfl⟩ := h
    obtain ⟨_, rfl⟩ := List.getElem?_eq_some_iff.1 hq
    simp
  · intro q hq
    simp [nx, built, hq]

end Graph
end Homfa
