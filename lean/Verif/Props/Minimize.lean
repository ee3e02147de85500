import Verif.Props.Determinize
import Verif.Proof.Minimize
import Verif.Proof.UfHistory
/-! Properties C04 - C08: minimization. -/

namespace Homfa
open Spec

/-- Acceptance of a word when the run is started in state `q`, through the public interface. -/
def acceptsFrom (g : Graph) (q : Nat) (w : List Bool) : Res Bool := do
  let r ← g.runWord q w
  g.isFinalState r

theorem acceptsFrom_eq {g : Graph} (hg : g.WF) {q : Nat} (hq : q < g.size) (w : List Bool) :
    acceptsFrom g q w = .ok (g.accFrom q w) := by
  unfold acceptsFrom
  rw [(hg.run_ok hq w).1, Res.bind_ok, Graph.WF.isFinalState_ok hg (hg.run_lt hq w)]
  rfl

/-- `exTwo`: five states, state 4 unreachable, states 1 and 2 indistinguishable, 0 and 3 distinguished only by length. -/
def exTwo : Graph := Graph.built 0 [3] [(0, 1, 2), (1, 1, 3), (2, 2, 3), (3, 3, 3), (4, 0, 3)]

theorem exTwo_wf : exTwo.WF := by
  refine ⟨by decide, ?_, by decide, by decide⟩
  intro i t h
  match i with
  | 0 | 1 | 2 | 3 | 4 => simp [exTwo, Graph.built] at h; subst h; rfl
  | n + 5 => simp [exTwo, Graph.built] at h

/-- **C04.** `minimized()` succeeds on every well-formed graph, is well-formed and accepts exactly the same words. -/
theorem C04_minimized_language (g : Graph) (hg : g.WF) :
    ∃ m, g.minimized = .ok m ∧ m.WF ∧ ∀ w, m.accepts w = g.accepts w := by
  obtain ⟨m, h1, h2, _, h3, _⟩ := Graph.minimized_good hg
  exact ⟨m, h1, h2, fun w => by rw [h2.accepts_eq, hg.accepts_eq, h3]⟩

example : exTwo.WF ∧ (do let m ← exTwo.minimized; pure m.size) = .ok 3 := ⟨exTwo_wf, by decide⟩

/-- **C05.** `minimized()` has at most as many states as any finite DFA for the language of `g`. -/
theorem C05_minimized_minimal (g : Graph) (hg : g.WF) (m : Graph) (hm : g.minimized = .ok m)
    (n : Nat) (d : Dfa (Fin n)) (hd : ∀ w, g.accepts w = .ok (d.accepts w)) : m.size ≤ n := by
  obtain ⟨m', h1, h2, _, h3, h4, h5⟩ := Graph.minimized_good hg
  rw [hm] at h1; injection h1 with h1; subst h1
  refine Graph.minimal_of_trim h4 h5 d (fun w => ?_)
  have := hd w
  rw [hg.accepts_eq] at this
  injection this with this
  rw [h3, this]

/-- Every well-formed graph is itself a finite DFA for its language. -/
theorem exists_dfa {m : Graph} (hm : m.WF) : ∃ d : Dfa (Fin m.size), ∀ w, m.accepts w = .ok (d.accepts w) := by
  let d : Dfa (Fin m.size) := ⟨⟨m.init, hm.init_lt⟩, fun q b => ⟨m.nx q.val b, hm.nx_lt q.2 b⟩, fun q => m.fin q.val⟩
  have h : ∀ (w : List Bool) (q : Fin m.size), (d.run q w).val = w.foldl m.nx q.val := by
    intro w
    induction w with
    | nil => intro q; rfl
    | cons b w ih => intro q; exact ih _
  refine ⟨d, fun w => ?_⟩
  rw [hm.accepts_eq]
  show Except.ok (m.fin (w.foldl m.nx m.init)) = Except.ok (m.fin (d.run d.start w).val)
  rw [h]

/-- Non-vacuity of C05: there is a competing DFA for the language of `exTwo`, with 3 states. -/
example : ∃ d : Dfa (Fin 3), ∀ w, exTwo.accepts w = .ok (d.accepts w) := by
  obtain ⟨m, h1, h2, h3⟩ := C04_minimized_language exTwo exTwo_wf
  have hs : m.size = 3 := by
    have : (do let m ← exTwo.minimized; pure m.size) = (.ok 3 : Res Nat) := by decide
    rw [h1, Res.bind_ok] at this
    injection this
  have h := exists_dfa h2
  rw [hs] at h
  obtain ⟨d, hd⟩ := h
  exact ⟨d, fun w => by rw [← h3 w, hd w]⟩

/-- **C05 (shape).** All states of `minimized()` are reachable and pairwise distinguishable. -/
theorem C05_minimized_trim (g : Graph) (hg : g.WF) (m : Graph) (hm : g.minimized = .ok m) :
    (∀ q < m.size, ∃ w, m.runWord m.initialState w = .ok q) ∧
    (∀ a < m.size, ∀ b < m.size, a ≠ b → ∃ w, acceptsFrom m a w ≠ acceptsFrom m b w) := by
  obtain ⟨m', h1, h2, _, h3, h4, h5⟩ := Graph.minimized_good hg
  rw [hm] at h1; injection h1 with h1; subst h1
  refine ⟨fun q hq => ?_, fun a ha b hb hne => ?_⟩
  · obtain ⟨w, rfl⟩ := h4 q hq
    exact ⟨w, (h2.run_ok h2.init_lt w).1⟩
  · obtain ⟨w, hw⟩ := h5 a ha b hb hne
    refine ⟨w, ?_⟩
    rw [acceptsFrom_eq h2 ha, acceptsFrom_eq h2 hb]
    intro e; injection e with e; exact hw e

/-- **C06.** `removed_unreachable()` succeeds, is well-formed, accepts the same words, all its states are reachable, and
its size is the number of states of `g` reachable from the initial state. -/
theorem C06_removed_unreachable (g : Graph) (hg : g.WF) :
    ∃ m, g.removedUnreachable = .ok m ∧ m.WF ∧ (∀ w, m.accepts w = g.accepts w) ∧
      (∀ q < m.size, ∃ w, m.runWord m.initialState w = .ok q) ∧
      ∃ R : List Nat, R.Nodup ∧ (∀ q, q ∈ R ↔ ∃ w, g.runWord g.initialState w = .ok q) ∧ m.size = R.length := by
  obtain ⟨m, h1, h2, _, h3, h4, R, h5, h6, h7⟩ := Graph.removed_good hg
  refine ⟨m, h1, h2, fun w => by rw [h2.accepts_eq, hg.accepts_eq, h3], ?_, R, h5.nodup, ?_, h7⟩
  · intro q hq
    obtain ⟨w, rfl⟩ := h4 q hq
    exact ⟨w, (h2.run_ok h2.init_lt w).1⟩
  · intro q
    rw [h6]
    constructor
    · rintro ⟨w, rfl⟩
      exact ⟨w, (hg.run_ok hg.init_lt w).1⟩
    · rintro ⟨w, h⟩
      rw [show g.initialState = g.init from rfl, (hg.run_ok hg.init_lt w).1] at h
      exact ⟨w, by injection h⟩

example : (do let m ← exTwo.removedUnreachable; pure m.size) = .ok 4 := by decide

/-- **C07.** `grouped_nondistinguishable()` succeeds, is well-formed, accepts the same words, and any two different states
of the result are separated by some word. -/
theorem C07_grouped (g : Graph) (hg : g.WF) :
    ∃ m, g.groupedNondistinguishable = .ok m ∧ m.WF ∧ (∀ w, m.accepts w = g.accepts w) ∧
      (∀ a < m.size, ∀ b < m.size, a ≠ b → ∃ w, acceptsFrom m a w ≠ acceptsFrom m b w) := by
  obtain ⟨m, h1, h2, _, h3, h4, _⟩ := Graph.grouped_good hg
  refine ⟨m, h1, h2, fun w => by rw [h2.accepts_eq, hg.accepts_eq, h3], ?_⟩
  intro a ha b hb hne
  obtain ⟨w, hw⟩ := h4 a ha b hb hne
  refine ⟨w, ?_⟩
  rw [acceptsFrom_eq h2 ha, acceptsFrom_eq h2 hb]
  intro e; injection e with e; exact hw e

/-- **C07 (exactly the equivalent states are merged).** There is a map from the states of `g` onto the states of the
result that preserves acceptance from every state and identifies two states iff no word separates them. -/
theorem C07_grouped_quotient (g : Graph) (hg : g.WF) (m : Graph) (hm : g.groupedNondistinguishable = .ok m) :
    ∃ φ : Nat → Nat, (∀ q < g.size, φ q < m.size) ∧ (∀ k < m.size, ∃ q < g.size, φ q = k) ∧
      (∀ q < g.size, ∀ w, acceptsFrom m (φ q) w = acceptsFrom g q w) ∧
      (∀ a < g.size, ∀ b < g.size, φ a = φ b ↔ ∀ w, acceptsFrom g a w = acceptsFrom g b w) := by
  obtain ⟨m', h1, h2, _, _, _, _, φ, h5, h6, h7, h8⟩ := Graph.grouped_good hg
  rw [hm] at h1; injection h1 with h1; subst h1
  refine ⟨φ, h5, h6, ?_, ?_⟩
  · intro q hq w
    rw [acceptsFrom_eq h2 (h5 q hq), acceptsFrom_eq hg hq, h7 q hq]
  · intro a ha b hb
    rw [h8 a ha b hb]
    constructor
    · intro e w; rw [acceptsFrom_eq hg ha, acceptsFrom_eq hg hb, e w]
    · intro e w
      have := e w
      rw [acceptsFrom_eq hg ha, acceptsFrom_eq hg hb] at this
      injection this

example : (do let m ← exTwo.groupedNondistinguishable; pure m.size) = .ok 4 := by decide

/-- **C08.** After any history of in-range `unite`/`find` calls on a fresh `UnionFind(n)`: the calls all succeed, `find`
gives the same answer for two elements exactly when the united pairs connect them, a further `find` changes none of
these answers, and `size()` is the number of classes. -/
theorem C08_union_find (n : Nat) (cs : List UfCall) (hcs : ∀ c ∈ cs, c.InRange n) :
    ∃ g, UnionFind.calls (UnionFind.new n) cs = .ok g ∧
      (∀ x < n, ∀ y < n, ∃ rx ry gx gy, UnionFind.find g x = .ok (rx, gx) ∧ UnionFind.find g y = .ok (ry, gy) ∧
        rx < n ∧ (rx = ry ↔ Conn (united cs) x y) ∧ Conn (united cs) x rx ∧
        (∃ gxy, UnionFind.find gx y = .ok (ry, gxy))) ∧
      ∃ k, UnionFind.size g = .ok k ∧ NumClasses (Conn (united cs)) n k := by
  obtain ⟨g, r, d, h1, h2, h3, h4⟩ := UnionFind.calls_ok n cs hcs
  subst h2
  refine ⟨g, h1, ?_, _, h3.size_ok, ?_⟩
  · intro x hx y hy
    obtain ⟨gx, ex, ⟨dx, ix⟩, lx⟩ := h3.find_ok hx
    obtain ⟨gy, ey, _, _⟩ := h3.find_ok hy
    obtain ⟨gxy, exy, _, _⟩ := ix.find_ok (x := y) (by rw [lx]; exact hy)
    refine ⟨r x, r y, gx, gy, ex, ey, h3.rep_lt x hx, h4 x y hx hy, ?_, gxy, exy⟩
    exact (h4 x (r x) hx (h3.rep_lt x hx)).1 (h3.rep_rep hx).symm
  · refine ⟨(List.range g.length).filter (fun x => decide (r x = x)), rfl, ?_, ?_, ?_⟩
    · intro x hx; simpa using (List.mem_filter.1 hx).1
    · refine List.Pairwise.imp_of_mem ?_ ((ssorted_range g.length).filter _)
      intro a b ha hb hlt hc
      simp only [List.mem_filter, List.mem_range, decide_eq_true_eq] at ha hb
      have := (h4 a b ha.1 hb.1).2 hc
      omega
    · intro x hx
      refine ⟨r x, ?_, (h4 x (r x) hx (h3.rep_lt x hx)).1 (h3.rep_rep hx).symm⟩
      simp [h3.rep_lt x hx, h3.rep_rep hx]

/-- Non-vacuity of C08: a history with repeated and transitive unions, and its answers. -/
example : (∀ c ∈ [UfCall.unite 0 3, .find 3, .unite 3 1, .unite 0 1], c.InRange 5) ∧
    (do let g ← UnionFind.calls (UnionFind.new 5) [.unite 0 3, .find 3, .unite 3 1, .unite 0 1]
        UnionFind.size g) = .ok 3 := by
  refine ⟨?_, by decide⟩
  intro c hc
  simp only [List.mem_cons, List.not_mem_nil, or_false] at hc
  rcases hc with rfl | rfl | rfl | rfl <;> simp [UfCall.InRange]

end Homfa
