import Verif.Proof.Memory
import Verif.Props.Commands

/-! # C99: what a runner holds does not grow with the stream -/

namespace Homfa

variable {N n l : Nat}

/-- **C99**, REVERSE: after any calls the runner holds two ciphertexts for each state of the automaton, a smallest one for the reversed language (or the
one that was given, if it is said to be reversed already).  Only the records of the timer grow: one for each input, and one for each refreshing. -/
theorem C99_reverse (S : Scheme N n l) {g : Graph} (hg : g.WF) {boot : Nat} {rev : Bool} {states : Nat}
    (hst : if rev then states = g.size else IsLeast {k | ∃ d : Spec.Dfa (Fin k), ∀ u, g.accepts u.reverse = .ok (d.accepts u)} states)
    {r r' : Backstream N} (hr : reverseMake g boot rev true false = .ok r) (cs : List (Call (Gsw l N))) {outs : List (TLWE N)}
    (h : runCalls (fun r c => Backstream.eval S r c) (fun r => do let c ← r.result; pure (c, r)) r cs = .ok (outs, r')) :
    r'.held = 2 * states ∧ r'.timer.length = (fedWord cs).length + (fedWord cs).length / boot := by
  have hsz : r.graph.size = states := by
    unfold reverseMake at hr
    cases rev with
    | true =>
      simp only [if_true] at hr hst
      rw [Res.pure_eq, Res.bind_ok] at hr
      obtain ⟨_, _, _, _, _, h6⟩ := make_sizes hr
      cases h6
      exact hst.symm
    | false =>
      obtain ⟨g1, a1, a2, a3⟩ := C03_reversed_language g hg
      obtain ⟨g2, b1, b2, b3⟩ := C04_minimized_language g1 a2
      simp only [Bool.false_eq_true, if_false] at hr hst
      rw [a1, Res.bind_ok, b1, Res.bind_ok] at hr
      obtain ⟨_, _, _, _, _, h6⟩ := make_sizes hr
      cases h6
      apply Nat.le_antisymm
      · obtain ⟨d, hd⟩ := hst.1
        exact C05_minimized_minimal g1 a2 r.graph b1 states d (fun u => by rw [a3, hd])
      · refine hst.2 ?_
        obtain ⟨d, hd⟩ := exists_dfa b2
        exact ⟨d, fun u => by rw [← hd, b3, a3]⟩
  obtain ⟨g', hm⟩ := reverse_make hr
  obtain ⟨h1, h2, h3, h4, h5, _⟩ := make_sizes hm
  obtain ⟨k1, k2, k3, k4, k5, k6⟩ := backstream_sizes cs h h1 h2 (by rw [h3, h4]; simp)
  refine ⟨?_, ?_⟩
  · unfold Backstream.held
    rw [k2, k3, hsz]
    omega
  · rw [k6, k4, h4, h5, Nat.zero_add]

/-- **C99**, OFFLINE: the runner is told the length of the input and notes which states can be reached at which position, so it holds at least one
and at most as many state numbers for each input as there are states; the ciphertexts it holds are two for each state, after any calls.  The
records of the timer are one for each input given, and one for each refreshing. -/
theorem C99_offline (S : Scheme N n l) {g : Graph} (hg : g.WF) {size boot : Nat} {r r' : Backstream N}
    (hr : offlineMake g size boot true false = .ok r) (cs : List (Call (Gsw l N))) {outs : List (TLWE N)}
    (h : runCalls (fun r c => Backstream.eval S r c) (fun r => do let c ← r.result; pure (c, r)) r cs = .ok (outs, r')) :
    r'.held = 2 * g.size ∧ size ≤ r'.depthEntries ∧ r'.depthEntries ≤ size * g.size ∧
      r'.timer.length = (fedWord cs).length + (fedWord cs).length / boot := by
  obtain ⟨h1, h2, h3, h4, h5, h6⟩ := make_sizes (show Backstream.make g boot (some size) true false = .ok r from hr)
  have h6 : g.reserveStatesAtDepth size = .ok r.graph := h6
  rw [Graph.reserve_ok hg] at h6
  have hgr : r.graph = { g with statesAtDepth := (List.range size).map (g.levelSet [g.init]) } := (Except.ok.inj h6).symm
  obtain ⟨k1, k2, k3, k4, k5, k6⟩ := backstream_sizes cs h h1 h2 (by rw [h3, h4]; simp)
  have hsz : r.graph.size = g.size := by rw [hgr]; rfl
  have hent : r'.depthEntries = ((List.range size).map fun d => (g.levelSet [g.init] d).length).sum := by
    unfold Backstream.depthEntries
    rw [k1, hgr, List.map_map]
    rfl
  have hi : ∀ q ∈ [g.init], q < g.size := by intro q hq; simp at hq; subst hq; exact hg.init_lt
  have hle : ∀ d, (g.levelSet [g.init] d).length ≤ g.size := fun d => live_le (Graph.sorted_levelSet (by simp) d) (Graph.levelSet_lt hi d)
  have hpos : ∀ d, 1 ≤ (g.levelSet [g.init] d).length := fun d => List.length_pos_iff.2 (levelSet_ne_nil hg d)
  refine ⟨?_, ?_, ?_, ?_⟩
  · unfold Backstream.held
    rw [k2, k3, hsz]
    omega
  · rw [hent]
    clear * - hpos
    induction size with
    | zero => simp
    | succ k ih =>
      rw [List.range_succ, List.map_append, List.sum_append]
      have := hpos k
      simp only [List.map_cons, List.map_nil, List.sum_cons, List.sum_nil]
      omega
  · rw [hent]
    clear * - hle
    induction size with
    | zero => simp
    | succ k ih =>
      rw [List.range_succ, List.map_append, List.sum_append, Nat.add_mul]
      have := hle k
      simp only [List.map_cons, List.map_nil, List.sum_cons, List.sum_nil]
      omega
  · rw [k6, k4, h4, h5, Nat.zero_add]

/-- **C99**, BLOCK: after any calls the runner holds no more than a queue of ciphertexts, one for the state and one for each bit of the number of
states; fewer inputs are pending than the queue takes.  Only the records of the timer grow: there are at least as many as inputs that have been
evaluated. -/
theorem C99_block (S : Scheme N n l) {g : Graph} (hg : g.WF) {qs : Nat} {r r' : Block N l} (hr : Block.make g qs false = .ok r)
    (cs : List (Call (Gsw l N))) {outs : List (TLWE N)}
    (h : runCalls (fun r c => Block.evalOne S r c) (fun r => Block.result S r) r cs = .ok (outs, r')) :
    r'.held ≤ max 1 qs + Nat.log2 g.size + 1 ∧ r'.queued.length < max 1 qs ∧ r'.live.length ≤ g.size ∧
      (qs ≤ 2 ^ 31 → (fedWord cs).length ≤ r'.timer.length + r'.queued.length) := by
  cases hr
  have := block_sizes (fed := 0) (qs := qs) hg cs h ⟨rfl, rfl, List.pairwise_singleton _ _, by
    intro q hq
    rw [List.mem_singleton.1 hq]
    exact hg.init_lt, by show 0 < _; omega, Nat.zero_le _, fun _ => Nat.le_refl _⟩
  refine ⟨?_, this.queued, live_le this.live this.live_lt, fun h31 => ?_⟩
  · have h1 := this.queued
    have h2 := this.ws4
    have h3 : r'.selector.toList.length ≤ 1 := by cases r'.selector <;> simp
    unfold Block.held
    omega
  · have := this.timer h31
    rwa [Nat.zero_add] at this

/-- **C99**, FLUT: after any calls the runner holds one ciphertext for each state and fewer pending inputs than the queue takes, and transition tables
that are made once, with an entry for each state and each input of up to the length of the queue. -/
theorem C99_flut (S : Scheme N n l) {g : Graph} {maxSecond queue boot : Nat} {r r' : Flut N l} (hr : Flut.make g maxSecond queue boot false = .ok r)
    (cs : List (Call (Gsw l N))) {outs : List (TLWE N)}
    (h : runCalls (fun r c => Flut.evalOne S r c) (fun r => Flut.result S r) r cs = .ok (outs, r')) :
    r'.held < g.size + max 1 queue ∧ r'.queued.length < max 1 queue ∧ r'.tableEntries = (2 ^ (queue + 1) - 1) * g.size := by
  obtain ⟨h1, h2, h3, h4⟩ := flutMake_sizes hr
  obtain ⟨k1, k2, k3⟩ := flut_sizes cs h (by rw [h2]; show 0 < _; omega)
  rw [h3] at k1
  refine ⟨?_, k1, ?_⟩
  · unfold Flut.held
    omega
  · rw [← h4]
    unfold Flut.tableEntries
    rw [k3]

/-! ## The hypotheses can be met -/

/-- For the example graph, three inputs and two results: the calls succeed, and the bounds are these numbers. -/
example : ∃ (S : Scheme 4 2 1) (cs : List (Call (Gsw 1 4))), (fedWord cs).length = 3 ∧
    (∃ (r r' : Backstream 4) (outs : List (TLWE 4)), reverseMake exGraph 2 true true false = .ok r ∧
      runCalls (fun r c => Backstream.eval S r c) (fun r => do let c ← r.result; pure (c, r)) r cs = .ok (outs, r') ∧ r'.held = 6 ∧ r'.timer.length = 4) ∧
    (∃ (r r' : Block 4 1) (outs : List (TLWE 4)), Block.make exGraph 2 false = .ok r ∧
      runCalls (fun r c => Block.evalOne S r c) (fun r => Block.result S r) r cs = .ok (outs, r') ∧ r'.held ≤ 4) ∧
    ∃ (r r' : Flut 4 1) (outs : List (TLWE 4)), Flut.make exGraph 2 2 2 false = .ok r ∧
      runCalls (fun r c => Flut.evalOne S r c) (fun r => Flut.result S r) r cs = .ok (outs, r') ∧ r'.held < 5 ∧ r'.tableEntries = 21 := by
  have hs := toy_sound (N := 4) (n := 2) (l := 1) ⟨![1, 0, 1, 0], ![1, 0]⟩ (by decide) (by decide)
  have hcs : ∃ cs, List.Forall₂ (Call.Rel toyEnc) cs [.feed false, .result, .feed true, .feed true, .result] ∧ (fedWord cs).length = 3 :=
    ⟨[.feed (Scheme.encrypt _ 0 false), .result, .feed (Scheme.encrypt _ 0 true), .feed (Scheme.encrypt _ 0 true), .result],
      .cons (.feed (hs.encrypt _ _)) (.cons .result (.cons (.feed (hs.encrypt _ _)) (.cons (.feed (hs.encrypt _ _)) (.cons .result .nil)))), rfl⟩
  obtain ⟨cs, hcs, hlen⟩ := hcs
  have hsize : exGraph.size = 3 := rfl
  refine ⟨toyScheme 4 2 1 ⟨![1, 0, 1, 0], ![1, 0]⟩, cs, hlen, ?_, ?_, ?_⟩
  · obtain ⟨r, r', outs, h1, h2, _⟩ := reverse_history hs (by decide) exGraph exGraph_wf 2 (by decide) true (by decide) cs _ hcs
    obtain ⟨k1, k2⟩ := C99_reverse _ exGraph_wf (rev := true) (states := 3) rfl h1 cs h2
    exact ⟨r, r', outs, h1, h2, k1, by rw [k2, hlen]⟩
  · obtain ⟨r, r', outs, h1, h2, _⟩ := C30_block_decides hs exGraph exGraph_wf 2 3 (liveBits_of_size exGraph_wf (by decide)) (by decide) (by decide)
      (by decide) (by decide) cs _ hcs (fun rest h => by cases h)
    exact ⟨r, r', outs, h1, h2, (C99_block _ exGraph_wf h1 cs h2).1⟩
  · obtain ⟨r, r', outs, h1, h2, _⟩ := C32_flut_no_exit hs exGraph exGraph_wf 2 2 2 3 (by rw [← hsize]; exact liveMax_of_size exGraph_wf) (by decide)
      (by decide) (by decide) (by decide) (by decide) (by decide) (by decide) cs _ hcs
    obtain ⟨k1, _, k3⟩ := C99_flut _ h1 cs h2
    exact ⟨r, r', outs, h1, h2, k1, k3⟩

/-- OFFLINE on two inputs. -/
example : ∃ (S : Scheme 4 2 1) (cs : List (Call (Gsw 1 4))) (r r' : Backstream 4) (outs : List (TLWE 4)), offlineMake exGraph 2 2 true false = .ok r ∧
      runCalls (fun r c => Backstream.eval S r c) (fun r => do let c ← r.result; pure (c, r)) r cs = .ok (outs, r') ∧ (fedWord cs).length = 2 ∧
      r'.held = 6 ∧ r'.depthEntries ≤ 6 := by
  have hS : Nonempty (Scheme 4 2 1) := ⟨toyScheme 4 2 1 ⟨![1, 0, 1, 0], ![1, 0]⟩⟩
  obtain ⟨S⟩ := hS
  have c : Gsw 1 4 := fun _ _ _ => 0#64
  obtain ⟨r, r', h1, h2, _⟩ := C48_offline_cmux S (by decide) exGraph exGraph_wf 2 (by decide) [c, c] (show 2 < 2 ^ 31 by decide)
  have h3 : runCalls (fun r c => Backstream.eval S r c) (fun r => do let c ← r.result; pure (c, r)) r [.feed c, .feed c] = .ok ([], r') := by
    obtain ⟨r1, e1, h2⟩ := Res.bind_eq_ok.1 (show (do let r ← Backstream.eval S r c; r.evalAll S [c]) = .ok r' from h2)
    obtain ⟨r2, e2, h2⟩ := Res.bind_eq_ok.1 (show (do let r ← Backstream.eval S r1 c; r.evalAll S []) = .ok r' from h2)
    cases h2
    show (do let r ← Backstream.eval S r c; _) = _
    rw [e1, Res.bind_ok]
    show (do let r ← Backstream.eval S r1 c; _) = _
    rw [e2, Res.bind_ok]
    rfl
  obtain ⟨k1, _, k3, _⟩ := C99_offline S exGraph_wf h1 _ h3
  exact ⟨S, _, r, r', [], h1, h3, rfl, k1, k3⟩

end Homfa
