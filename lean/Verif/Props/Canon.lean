import Verif.Proof.Canon
import Verif.Props.Minimize
import Verif.Props.Text
import Verif.Props.Convert
/-!
# Property C73: minimisation is canonical
-/

namespace Homfa
open Homfa.Spec

/-- Renaming the states of `g` by `φ` gives `h`: a one-to-one correspondence of the states that respects the initial state, the transitions and the
final states. -/
structure Renaming (φ : Nat → Nat) (g h : Graph) : Prop where
  size : g.size = h.size
  lt : ∀ q < g.size, φ q < h.size
  inj : ∀ a < g.size, ∀ b < g.size, φ a = φ b → a = b
  init : φ g.initialState = h.initialState
  next : ∀ q < g.size, ∀ b, ∃ r, g.nextState q b = .ok r ∧ h.nextState (φ q) b = .ok (φ r)
  final : ∀ q < g.size, h.isFinalState (φ q) = g.isFinalState q

/-- **C73.** Minimizing a minimized graph changes nothing, not even the numbers of the states. -/
theorem C73_idempotent (g : Graph) (hg : g.WF) (m : Graph) (hm : g.minimized = .ok m) : m.minimized = .ok m := by
  obtain ⟨m', h1, h2, h3, _, h5, h6⟩ := Graph.minimized_good hg
  rw [hm] at h1; cases h1
  exact Graph.minimized_id h2 h5 h6 h3

/-- **C73.** The minimized graphs of two graphs with the same language are the same up to the numbers of the states. -/
theorem C73_canonical (g k : Graph) (hg : g.WF) (hk : k.WF) (hl : ∀ w, g.accepts w = k.accepts w) :
    ∃ m n φ, g.minimized = .ok m ∧ k.minimized = .ok n ∧ Renaming φ m n := by
  obtain ⟨m, a1, a2, _, a4, a5, a6⟩ := Graph.minimized_good hg
  obtain ⟨n, b1, b2, _, b4, b5, b6⟩ := Graph.minimized_good hk
  have hlang : ∀ w, m.dfa.accepts w = n.dfa.accepts w := by
    intro w
    have := hl w
    rw [hg.accepts_eq, hk.accepts_eq] at this
    injection this with this
    rw [a4, b4, this]
  obtain ⟨φ, c1, c2, c3, c4, c5⟩ := Graph.iso_of_trim a2 b2 a5 a6 b6 hlang
  have hsz : m.size = n.size := by
    apply Nat.le_antisymm
    · exact Graph.inj_le c1 c3
    · obtain ⟨ψ, d1, _, d3, _⟩ := Graph.iso_of_trim b2 a2 b5 b6 a6 (fun w => (hlang w).symm)
      exact Graph.inj_le d1 d3
  refine ⟨m, n, φ, a1, b1, hsz, c1, c3, c2 [], fun q hq b => ?_, fun q hq => ?_⟩
  · exact ⟨_, Graph.WF.nextState_ok hq b, by rw [Graph.WF.nextState_ok (c1 q hq), c4 q hq]⟩
  · rw [a2.isFinalState_ok hq, b2.isFinalState_ok (c1 q hq), c5 q hq]

/-- **C73.** `reversed()` of a graph all of whose states can be reached is already minimal: minimizing it changes nothing. -/
theorem C73_reversed_minimal (g : Graph) (hg : g.WF) (hr : ∀ q < g.size, ∃ w, g.runWord g.initialState w = .ok q) (r : Graph)
    (h : g.reversed = .ok r) : r.minimized = .ok r := by
  obtain ⟨r', h', h2, h3, _, h5, _⟩ := Graph.reversed_spec hg
  rw [h] at h'; cases h'
  refine Graph.minimized_id h2 h5 (Graph.reversed_reduced hg (fun q hq => ?_) h) h3
  obtain ⟨w, hw⟩ := hr q hq
  have := (hg.run_ok hg.init_lt w).1
  exact ⟨w, by
    have h4 : g.runWord g.init w = .ok q := hw
    rw [show g.runWord g.init w = _ from this] at h4
    injection h4⟩

/-- **C73.** Reversing twice minimizes: the result is `minimized()` up to the numbers of the states. -/
theorem C73_double_reversal (g : Graph) (hg : g.WF) :
    ∃ r s m φ, g.reversed = .ok r ∧ r.reversed = .ok s ∧ g.minimized = .ok m ∧ Renaming φ m s := by
  obtain ⟨r, h1, h2, _, _, h5, _⟩ := Graph.reversed_spec hg
  obtain ⟨r', h1', _, hr⟩ := C03_reversed_language g hg
  rw [h1] at h1'; cases h1'
  obtain ⟨s, k1, k2, k3⟩ := C03_reversed_language r h2
  have hs := C73_reversed_minimal r h2 (fun q hq => by
    obtain ⟨w, hw⟩ := h5 q hq
    exact ⟨w, by rw [← hw]; exact (h2.run_ok h2.init_lt w).1⟩) s k1
  obtain ⟨m, n, φ, e1, e2, e3⟩ := C73_canonical g s hg k2 (fun w => by rw [k3, hr, List.reverse_reverse])
  rw [hs] at e2; cases e2
  exact ⟨r, s, m, φ, h1, k1, e1, e3⟩

/-- **C73.** A spec printed by `spec2spec --minimized` (with any other flags) is printed unchanged when it is minimized again (if its number of rows
fits an `int`). -/
theorem C73_spec2spec (spec : List Char) (g : Graph) (hg : Graph.fromIstream spec = .ok g) (hs : 0 < g.size) (reversed negated : Bool) :
    ∃ (out : List Char) (m : Graph), doSpec2spec spec true reversed negated = .ok out ∧ m.dump = .ok out ∧
      (m.size ≤ 2 ^ 31 → doSpec2spec out true false false = .ok out) := by
  have hwf := wf_of_fromIstream hg hs
  obtain ⟨g1, e1, w1⟩ : ∃ g1, (if negated then g.negated else pure g) = .ok g1 ∧ g1.WF := by
    cases negated
    · exact ⟨g, rfl, hwf⟩
    · obtain ⟨n, h1, h2, _⟩ := Graph.negated_spec hwf
      exact ⟨n, h1, h2⟩
  obtain ⟨g2, e2, w2⟩ : ∃ g2, (if reversed then g1.reversed else pure g1) = .ok g2 ∧ g2.WF := by
    cases reversed
    · exact ⟨g1, rfl, w1⟩
    · obtain ⟨r, h1, h2, _⟩ := C03_reversed_language g1 w1
      exact ⟨r, h1, h2⟩
  obtain ⟨m, e3, w3, h3, _⟩ := Graph.minimized_good w2
  have hm := C73_idempotent g2 w2 m e3
  have he : { m with statesAtDepth := [] } = m := by cases m; simp_all
  refine ⟨_, m, ?_, Graph.dump_ok w3, fun hsz => ?_⟩
  · unfold doSpec2spec
    rw [hg, Res.bind_ok, e1, Res.bind_ok, e2, Res.bind_ok, if_pos rfl, e3, Res.bind_ok]
    exact Graph.dump_ok w3
  · unfold doSpec2spec
    rw [Graph.fromIstream_dump w3 hsz, Res.bind_ok, he]
    simp only [Bool.false_eq_true, if_false, if_true, Res.pure_eq, Res.bind_ok, hm]
    exact Graph.dump_ok w3

/-- Two specs of "some bit is 1", with 3 and 4 rows (one row unreachable, two equivalent); their minimized forms number the two states differently. -/
example : doSpec2spec ">0\t0\t1\n1*\t2\t1\n2*\t1\t2\n".toList true false false = .ok ">0\t0\t1\n1*\t1\t1\n".toList ∧
    doSpec2spec "0*\t1\t0\n1*\t0\t0\n2\t0\t3\n>3\t3\t1\n".toList true false false = .ok "0*\t0\t0\n>1\t1\t0\n".toList ∧
    doSpec2spec "0*\t0\t0\n>1\t1\t0\n".toList true false false = .ok "0*\t0\t0\n>1\t1\t0\n".toList := by decide

/-- Reversing a graph with an unreachable state need not give a minimal one: the hypothesis of `C73_reversed_minimal` is needed. -/
example : (do let r ← exTwo.reversed; let m ← r.minimized; pure (r.size, m.size)) = (.ok (4, 3) : Res (Nat × Nat)) := by decide

end Homfa
