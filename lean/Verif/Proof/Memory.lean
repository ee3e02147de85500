import Verif.Spec.Memory
import Verif.Spec.History
import Verif.Proof.BttThrow
import Verif.Props.Block
import Verif.Props.Flut

/-! Sizes of what the runners hold, from the success of the calls alone. -/

namespace Homfa

variable {N n l : Nat}

theorem mwrite_lengths {α : Type} {m m' : Mem α} {v i : Nat} {x : α} (h : mwrite m v i x = .ok m') : m'.map List.length = m.map List.length := by
  unfold mwrite at h
  split at h
  · rename_i vec hv
    obtain ⟨vec', h1, h2⟩ := Res.bind_eq_ok.1 h
    cases h2
    rw [List.map_set, vset_length h1]
    apply List.ext_getElem? 
    intro j
    rw [List.getElem?_set]
    split
    · rename_i hj
      subst hj
      split
      · rw [List.getElem?_map, hv]; rfl
      · rw [List.getElem?_map, hv] ; simp_all
    · rfl
  · cases h

theorem Prog.run_lengths {α : Type} : ∀ (p : Prog α) {m m' : Mem α}, p.run m = .ok m' → m'.map List.length = m.map List.length
  | .ret, m, m', h => by cases h; rfl
  | .fail e, m, m', h => by cases h
  | .read v i k, m, m', h => by
    obtain ⟨x, _, h2⟩ := Res.bind_eq_ok.1 (show (do let x ← mread m v i; (k x).run m) = .ok m' from h)
    exact Prog.run_lengths (k x) h2
  | .write v i x k, m, m', h => by
    obtain ⟨m1, h1, h2⟩ := Res.bind_eq_ok.1 (show (do let m ← mwrite m v i x; k.run m) = .ok m' from h)
    rw [Prog.run_lengths k h2, mwrite_lengths h1]

theorem parFor_lengths {α : Type} {ts : List (Prog α)} {m m' : Mem α} (h : parFor ts m = .ok m') : m'.map List.length = m.map List.length :=
  parFor_inv_keeps (Q := fun x => x.map List.length = m.map List.length) (fun p _ _ _ hq hr => (p.run_lengths hr).trans hq) rfl h

theorem parFor_one {α : Type} {ts : List (Prog α)} {v v' : List α} (h : (do one (← parFor ts [v])) = .ok v') : v'.length = v.length := by
  obtain ⟨m, h1, h2⟩ := Res.bind_eq_ok.1 h
  have := parFor_lengths h1
  unfold one at h2
  split at h2
  · cases h2; simpa using this
  · cases h2

theorem parFor_two {α : Type} {ts : List (Prog α)} {v w : List α} {p : List α × List α} (h : (do two (← parFor ts [v, w])) = .ok p) :
    p.1.length = v.length ∧ p.2.length = w.length := by
  obtain ⟨m, h1, h2⟩ := Res.bind_eq_ok.1 h
  have := parFor_lengths h1
  unfold two at h2
  split at h2
  · cases h2; simpa using this
  · cases h2

/-! ## OFFLINE and REVERSE -/

theorem eval_sizes {S : Scheme N n l} {r r' : Backstream N} {c : Gsw l N} (h : r.eval S c = .ok r') (hw : r.weight.length = r.graph.size) :
    r'.graph = r.graph ∧ r'.bootInterval = r.bootInterval ∧ r'.weight.length = r.graph.size ∧ r'.workspace.length = r.graph.size ∧
    r'.numProcessed = r.numProcessed + 1 ∧ r'.timer.length = r.timer.length + 1 + (if (r.numProcessed + 1) % r.bootInterval = 0 then 1 else 0) ∧
    0 < r.bootInterval := by
  unfold Backstream.eval at h
  obtain ⟨sts, _, h⟩ := Res.bind_eq_ok.1 h
  obtain ⟨m, h1, h⟩ := Res.bind_eq_ok.1 h
  obtain ⟨p, h2, h⟩ := Res.bind_eq_ok.1 h
  have hp := parFor_two (p := p) (by rw [h1, Res.bind_ok]; exact h2)
  rw [vresize_length] at hp
  dsimp only at h
  by_cases hb : r.bootInterval = 0
  · rw [if_pos hb] at h; cases h
  · rw [if_neg hb] at h
    have h : (if (r.numProcessed + 1) % r.bootInterval = 0 then _ else _) = _ := h
    split at h
    · rename_i hk
      unfold Backstream.bootstrapWeight at h
      obtain ⟨m', h3, h⟩ := Res.bind_eq_ok.1 h
      obtain ⟨w, h4, h⟩ := Res.bind_eq_ok.1 h
      have h5 := parFor_one (v' := w) (by rw [h3, Res.bind_ok]; exact h4)
      cases h
      refine ⟨rfl, rfl, ?_, ?_, rfl, ?_, by omega⟩
      · exact h5.trans hp.1
      · exact hp.2.trans hw
      · simp [hk]
    · rename_i hk
      cases h
      refine ⟨rfl, rfl, hp.1, hp.2.trans hw, rfl, ?_, by omega⟩
      simp [hk]

/-- After any calls: the sizes, and the numbers of records. -/
theorem backstream_sizes {S : Scheme N n l} : ∀ (cs : List (Call (Gsw l N))) {r r' : Backstream N} {outs : List (TLWE N)},
    runCalls (fun r c => Backstream.eval S r c) (fun r => do let c ← r.result; pure (c, r)) r cs = .ok (outs, r') →
    r.weight.length = r.graph.size → r.workspace.length = r.graph.size →
    r.timer.length = r.numProcessed + r.numProcessed / r.bootInterval →
    r'.graph = r.graph ∧ r'.weight.length = r.graph.size ∧ r'.workspace.length = r.graph.size ∧
      r'.numProcessed = r.numProcessed + (fedWord cs).length ∧ r'.bootInterval = r.bootInterval ∧
      r'.timer.length = r'.numProcessed + r'.numProcessed / r.bootInterval
  | [], r, r', outs, h, h1, h2, h3 => by
    cases h
    exact ⟨rfl, h1, h2, rfl, rfl, h3⟩
  | .feed c :: cs, r, r', outs, h, h1, h2, h3 => by
    obtain ⟨r1, e1, e2⟩ := Res.bind_eq_ok.1 (show (do let r ← Backstream.eval S r c; runCalls _ _ r cs) = .ok (outs, r') from h)
    obtain ⟨a1, a2, a3, a4, a5, a6, a7⟩ := eval_sizes e1 h1
    obtain ⟨b1, b2, b3, b4, b5, b6⟩ := backstream_sizes cs e2 (by rw [a3, a1]) (by rw [a4, a1]) (by
      rw [a6, a5, a2, h3, Nat.succ_div]
      simp only [Nat.dvd_iff_mod_eq_zero]
      omega)
    refine ⟨b1.trans a1, by rw [b2, a1], by rw [b3, a1], ?_, b5.trans a2, by rw [b6, a2]⟩
    rw [b4, a5]
    simp only [fedWord, List.length_cons]
    omega
  | .result :: cs, r, r', outs, h, h1, h2, h3 => by
    obtain ⟨⟨c, r1⟩, e1, h⟩ := Res.bind_eq_ok.1 h
    obtain ⟨⟨bs, r2⟩, e2, h⟩ := Res.bind_eq_ok.1 h
    cases h
    obtain ⟨x, _, e1⟩ := Res.bind_eq_ok.1 e1
    cases e1
    exact backstream_sizes cs e2 h1 h2 h3

theorem make_sizes {g : Graph} {boot : Nat} {size : Option Nat} {hasKey sanitize : Bool} {r : Backstream N}
    (h : Backstream.make g boot size hasKey sanitize = .ok r) :
    r.weight.length = r.graph.size ∧ r.workspace.length = r.graph.size ∧ r.timer = [] ∧ r.numProcessed = 0 ∧ r.bootInterval = boot ∧
    (match size with | some k => g.reserveStatesAtDepth k | none => pure g) = .ok r.graph := by
  unfold Backstream.make at h
  obtain ⟨_, _, h⟩ := Res.bind_eq_ok.1 h
  cases sanitize with
  | true => cases h
  | false =>
    dsimp only at h
    rw [if_neg (by decide)] at h
    obtain ⟨g', h1, h⟩ := Res.bind_eq_ok.1 h
    obtain ⟨w, h2, h⟩ := Res.bind_eq_ok.1 h
    cases h
    refine ⟨?_, List.length_replicate .., rfl, rfl, rfl, h1⟩
    refine foldlM_inv_keeps (Q := fun w : List (TRLWE N) => w.length = g'.size) (fun s x s' hs hf => ?_) (List.length_replicate ..) h2
    obtain ⟨f, _, hf⟩ := Res.bind_eq_ok.1 hf
    exact (vset_length hf).trans hs

theorem reverse_make {g : Graph} {boot : Nat} {rev hasKey sanitize : Bool} {r : Backstream N} (h : reverseMake g boot rev hasKey sanitize = .ok r) :
    ∃ g', Backstream.make g' boot none hasKey sanitize = .ok r := by
  unfold reverseMake at h
  obtain ⟨g', _, h⟩ := Res.bind_eq_ok.1 h
  exact ⟨g', h⟩

/-! ## BLOCK -/

theorem lutLoop_records {S : Scheme N n l} {k : Nat} : ∀ (inputs : List (Gsw l N)) {i : Nat} {a b : List (TRLWE N)} {t : List (Target × Nat)}
    {p : List (TRLWE N) × List (TRLWE N) × List (Target × Nat)}, lutLoop S k inputs i a b t = .ok p → p.2.2.length = t.length + inputs.length
  | [], i, a, b, t, p, h => by cases h; rfl
  | c :: cs, i, a, b, t, p, h => by
    unfold lutLoop at h
    obtain ⟨_, _, h⟩ := Res.bind_eq_ok.1 h
    obtain ⟨_, _, h⟩ := Res.bind_eq_ok.1 h
    obtain ⟨_, _, h⟩ := Res.bind_eq_ok.1 h
    rw [lutLoop_records cs h]
    simp
    omega

theorem lookupTable_records {S : Scheme N n l} {table ws : List (TRLWE N)} {inputs : List (Gsw l N)} {t : List (Target × Nat)}
    {p : List (TRLWE N) × List (TRLWE N) × List (Target × Nat)} (h : lookupTableTimer S table inputs ws t = .ok p) :
    p.2.2.length = t.length + inputs.length := by
  unfold lookupTableTimer at h
  dsimp only at h
  obtain ⟨_, _, h⟩ := Res.bind_eq_ok.1 h
  obtain ⟨_, _, h⟩ := Res.bind_eq_ok.1 h
  split at h
  · rename_i h0
    cases h
    show t.length = _
    omega
  · obtain ⟨_, _, h⟩ := Res.bind_eq_ok.1 h
    obtain ⟨q, h1, h⟩ := Res.bind_eq_ok.1 h
    cases h
    have := lutLoop_records inputs h1
    exact this

theorem blockPropagate_records {S : Scheme N n l} {g : Graph} {queued : List (Gsw l N)} {at' : List (List Nat)} : ∀ (k : Nat)
    {w o : List (TRLWE N)} {t : List (Target × Nat)} {p : List (TRLWE N) × List (TRLWE N) × List (Target × Nat)},
    blockPropagate S g queued at' k w o t = .ok p → p.2.2.length = t.length + k
  | 0, w, o, t, p, h => by cases h; rfl
  | k + 1, w, o, t, p, h => by
    unfold blockPropagate at h
    obtain ⟨_, _, h⟩ := Res.bind_eq_ok.1 h
    obtain ⟨_, _, h⟩ := Res.bind_eq_ok.1 h
    obtain ⟨_, _, h⟩ := Res.bind_eq_ok.1 h
    rw [blockPropagate_records k h]
    simp
    omega

/-- what a BLOCK runner holds -/
structure BSizes (g : Graph) (qs : Nat) (fed : Nat) (r : Block N l) : Prop where
  graph : r.graph = g
  queueSize : r.queueSize = qs
  live : SSorted r.live
  live_lt : ∀ q ∈ r.live, q < g.size
  queued : r.queued.length < max 1 qs
  ws4 : r.ws4.length ≤ Nat.log2 g.size + 1
  timer : qs ≤ 2 ^ 31 → fed ≤ r.timer.length + r.queued.length

theorem live_le {g : Graph} {L : List Nat} (h : SSorted L) (h' : ∀ q ∈ L, q < g.size) : L.length ≤ g.size := by
  have := List.Nodup.length_le_of_subset (l₁ := L) (l₂ := List.range g.size) h.nodup (fun q hq => List.mem_range.2 (h' q hq))
  simpa using this

theorem evalQueued_sizes {S : Scheme N n l} {g : Graph} (hg : g.WF) {qs fed : Nat} {r r' : Block N l} (hgr : r.graph = g) (hqs : r.queueSize = qs)
    (hl : SSorted r.live) (hlt : ∀ q ∈ r.live, q < g.size) (hq : r.queued.length ≤ max 1 qs) (hw : r.ws4.length ≤ Nat.log2 g.size + 1)
    (ht : qs ≤ 2 ^ 31 → fed ≤ r.timer.length + r.queued.length) (h : r.evalQueued S = .ok r') : BSizes g qs fed r' ∧ r'.queued = [] := by
  unfold Block.evalQueued at h
  dsimp only at h
  split at h
  · rename_i h0
    cases h
    exact ⟨⟨hgr, hqs, hl, hlt, by omega, hw, ht⟩, List.eq_nil_of_length_eq_zero h0⟩
  · rename_i hne
    rw [hgr, Graph.trackLiveStates_ok hg hlt, Res.bind_ok] at h
    obtain ⟨w0, _, h⟩ := Res.bind_eq_ok.1 h
    obtain ⟨p, h2, h⟩ := Res.bind_eq_ok.1 h
    have h3 := blockPropagate_records _ h2
    have hs : ∀ q ∈ sinsertAll [] r.live, q < g.size := fun q hq => hlt q (by simpa using hq)
    have hlast : ∀ d0 : List Nat, (r.live :: (List.range r.queued.length).map (fun d => g.levelSet (sinsertAll [] r.live) (d + 1))).getLastD d0 =
        g.levelSet (sinsertAll [] r.live) r.queued.length := by
      intro d0
      obtain ⟨k, hk⟩ : ∃ k, r.queued.length = k + 1 := ⟨r.queued.length - 1, by omega⟩
      rw [hk, List.range_succ, List.map_append, ← List.cons_append]
      exact List.getLastD_concat ..
    have hcd : qs ≤ 2 ^ 31 → countDown r.queued.length = r.queued.length := fun h31 => countDown_eq (by omega)
    have hsort : SSorted (g.levelSet (sinsertAll [] r.live) r.queued.length) := Graph.sorted_levelSet (sorted_sinsertAll List.Pairwise.nil) _
    have hbnd := Graph.levelSet_lt hs (g := g) r.queued.length
    rw [hlast] at h
    split at h
    · obtain ⟨_, _, h⟩ := Res.bind_eq_ok.1 h
      obtain ⟨_, _, h⟩ := Res.bind_eq_ok.1 h
      cases h
      refine ⟨⟨rfl, hqs, hsort, hbnd, by show 0 < _; omega, hw, fun h31 => ?_⟩, rfl⟩
      show fed ≤ p.2.2.length + 0
      rw [h3, hcd h31]
      exact ht h31
    · obtain ⟨_, _, h⟩ := Res.bind_eq_ok.1 h
      obtain ⟨m4, k1, h⟩ := Res.bind_eq_ok.1 h
      obtain ⟨ws4, k2, h⟩ := Res.bind_eq_ok.1 h
      have k3 := parFor_one (v' := ws4) (by rw [k1, Res.bind_ok]; exact k2)
      rw [vresize_length] at k3
      obtain ⟨_, _, h⟩ := Res.bind_eq_ok.1 h
      obtain ⟨_, _, h⟩ := Res.bind_eq_ok.1 h
      obtain ⟨_, _, h⟩ := Res.bind_eq_ok.1 h
      obtain ⟨_, _, h⟩ := Res.bind_eq_ok.1 h
      obtain ⟨t, k4, h⟩ := Res.bind_eq_ok.1 h
      obtain ⟨_, _, h⟩ := Res.bind_eq_ok.1 h
      cases h
      refine ⟨⟨rfl, hqs, hsort, hbnd, by show 0 < _; omega, ?_, fun h31 => ?_⟩, rfl⟩
      · show ws4.length ≤ _
        rw [k3]
        have : Nat.log2 r.live.length ≤ Nat.log2 g.size := by
          rw [Nat.log2_eq_log_two, Nat.log2_eq_log_two]
          exact Nat.log_mono_right (live_le hl hlt)
        omega
      · show fed ≤ t.2.2.length + 0
        have := lookupTable_records k4
        rw [this, List.length_append, h3, hcd h31]
        have := ht h31
        omega

theorem block_sizes {S : Scheme N n l} {g : Graph} (hg : g.WF) {qs : Nat} : ∀ (cs : List (Call (Gsw l N))) {fed : Nat} {r r' : Block N l}
    {outs : List (TLWE N)}, runCalls (fun r c => Block.evalOne S r c) (fun r => Block.result S r) r cs = .ok (outs, r') → BSizes g qs fed r →
    BSizes g qs (fed + (fedWord cs).length) r'
  | [], fed, r, r', outs, h, hs => by cases h; exact hs
  | .feed c :: cs, fed, r, r', outs, h, hs => by
    obtain ⟨r1, e1, e2⟩ := Res.bind_eq_ok.1 (show (do let r ← Block.evalOne S r c; runCalls _ _ r cs) = .ok (outs, r') from h)
    have : BSizes g qs (fed + 1) r1 := by
      unfold Block.evalOne at e1
      dsimp only at e1
      split at e1
      · rename_i hlt
        cases e1
        rw [hs.queueSize] at hlt
        refine ⟨hs.graph, hs.queueSize, hs.live, hs.live_lt, by show (r.queued ++ [c]).length < _; omega, hs.ws4, fun h31 => ?_⟩
        have := hs.timer h31
        show fed + 1 ≤ r.timer.length + (r.queued ++ [c]).length
        simp
        omega
      · refine (evalQueued_sizes (r := { r with queued := r.queued ++ [c] }) hg hs.graph hs.queueSize hs.live hs.live_lt ?_ hs.ws4 (fun h31 => ?_) e1).1
        · have := hs.queued
          show (r.queued ++ [c]).length ≤ _
          simp only [List.length_append, List.length_singleton]
          omega
        · have := hs.timer h31
          show fed + 1 ≤ r.timer.length + (r.queued ++ [c]).length
          simp
          omega
    have := block_sizes hg cs e2 this
    simp only [fedWord, List.length_cons]
    rw [show fed + ((fedWord cs).length + 1) = fed + 1 + (fedWord cs).length by omega]
    exact this
  | .result :: cs, fed, r, r', outs, h, hs => by
    obtain ⟨⟨c, r1⟩, e1, h⟩ := Res.bind_eq_ok.1 h
    obtain ⟨⟨bs, r2⟩, e2, h⟩ := Res.bind_eq_ok.1 h
    cases h
    unfold Block.result at e1
    obtain ⟨r3, k1, e1⟩ := Res.bind_eq_ok.1 e1
    have := (evalQueued_sizes hg hs.graph hs.queueSize hs.live hs.live_lt hs.queued.le hs.ws4 hs.timer k1).1
    split at e1
    · obtain ⟨_, _, e1⟩ := Res.bind_eq_ok.1 e1
      cases e1
      exact block_sizes hg cs e2 this
    · cases e1

/-! ## FLUT -/

theorem flutQueued_sizes {S : Scheme N n l} {r r' : Flut N l} (h : r.evalQueued S = .ok r') :
    r'.queued = [] ∧ r'.weight.length = r.weight.length ∧ r'.memo = r.memo ∧ r'.queueSize = r.queueSize := by
  unfold Flut.evalQueued at h
  dsimp only at h
  split at h
  · rename_i h0
    cases h
    exact ⟨List.eq_nil_of_length_eq_zero h0, rfl, rfl, rfl⟩
  · obtain ⟨_, _, h⟩ := Res.bind_eq_ok.1 h
    obtain ⟨_, _, h⟩ := Res.bind_eq_ok.1 h
    obtain ⟨_, _, h⟩ := Res.bind_eq_ok.1 h
    obtain ⟨_, _, h⟩ := Res.bind_eq_ok.1 h
    obtain ⟨_, _, h⟩ := Res.bind_eq_ok.1 h
    obtain ⟨_, _, h⟩ := Res.bind_eq_ok.1 h
    obtain ⟨_, _, h⟩ := Res.bind_eq_ok.1 h
    obtain ⟨_, _, h⟩ := Res.bind_eq_ok.1 h
    obtain ⟨_, _, h⟩ := Res.bind_eq_ok.1 h
    obtain ⟨_, _, h⟩ := Res.bind_eq_ok.1 h
    obtain ⟨_, _, h⟩ := Res.bind_eq_ok.1 h
    obtain ⟨_, _, h⟩ := Res.bind_eq_ok.1 h
    split at h
    · cases h
    · obtain ⟨_, k1, h⟩ := Res.bind_eq_ok.1 h
      obtain ⟨p, k2, h⟩ := Res.bind_eq_ok.1 h
      have := parFor_two (p := p) (by rw [k1, Res.bind_ok]; exact k2)
      cases h
      exact ⟨rfl, this.1, rfl, rfl⟩

theorem flut_sizes {S : Scheme N n l} : ∀ (cs : List (Call (Gsw l N))) {r r' : Flut N l} {outs : List (TLWE N)},
    runCalls (fun r c => Flut.evalOne S r c) (fun r => Flut.result S r) r cs = .ok (outs, r') → r.queued.length < max 1 r.queueSize →
    r'.queued.length < max 1 r.queueSize ∧ r'.weight.length = r.weight.length ∧ r'.memo = r.memo
  | [], r, r', outs, h, hs => by cases h; exact ⟨hs, rfl, rfl⟩
  | .feed c :: cs, r, r', outs, h, hs => by
    obtain ⟨r1, e1, e2⟩ := Res.bind_eq_ok.1 (show (do let r ← Flut.evalOne S r c; runCalls _ _ r cs) = .ok (outs, r') from h)
    have : r1.queued.length < max 1 r.queueSize ∧ r1.weight.length = r.weight.length ∧ r1.memo = r.memo ∧ r1.queueSize = r.queueSize := by
      unfold Flut.evalOne at e1
      dsimp only at e1
      split at e1
      · rename_i hlt
        cases e1
        exact ⟨by show (r.queued ++ [c]).length < _; omega, rfl, rfl, rfl⟩
      · obtain ⟨k1, k2, k3, k4⟩ := flutQueued_sizes e1
        exact ⟨by rw [k1]; show 0 < _; omega, k2, k3, k4⟩
    obtain ⟨k1, k2, k3, k4⟩ := this
    obtain ⟨j1, j2, j3⟩ := flut_sizes cs e2 (by rw [k4]; exact k1)
    exact ⟨by rw [← k4]; exact j1, j2.trans k2, j3.trans k3⟩
  | .result :: cs, r, r', outs, h, hs => by
    obtain ⟨⟨c, r1⟩, e1, h⟩ := Res.bind_eq_ok.1 h
    obtain ⟨⟨bs, r2⟩, e2, h⟩ := Res.bind_eq_ok.1 h
    cases h
    unfold Flut.result at e1
    obtain ⟨r3, k1, e1⟩ := Res.bind_eq_ok.1 e1
    obtain ⟨k1, k2, k3, k4⟩ := flutQueued_sizes k1
    obtain ⟨_, _, e1⟩ := Res.bind_eq_ok.1 e1
    obtain ⟨_, _, e1⟩ := Res.bind_eq_ok.1 e1
    cases e1
    obtain ⟨j1, j2, j3⟩ := flut_sizes cs e2 (by rw [k4, k1]; show 0 < _; omega)
    exact ⟨by rw [← k4]; exact j1, j2.trans k2, j3.trans k3⟩

/-- The rows of the transition tables have an entry for every input of their length and every state. -/
theorem memoRow_length {g : Graph} {d : Nat} {row : List Nat} (h : memoRow g d = .ok row) : row.length = 2 ^ d * g.size := by
  unfold memoRow at h
  obtain ⟨cnt, h1, h⟩ := Res.bind_eq_ok.1 h
  have hc : cnt = 2 ^ d := (lt_of_shl1 h1).2
  have hi : ∀ (sts : List Nat) (i : Nat) (m m' : List Nat), sts.foldlM (fun (memo : List Nat) src => do
      let dst ← g.transition64 src (BitVec.ofNat 64 i) d
      pure (memo ++ [dst])) m = (.ok m' : Res (List Nat)) → m'.length = m.length + sts.length := by
    intro sts i
    induction sts with
    | nil => intro m m' h; cases h; rfl
    | cons s sts ih =>
      intro m m' h
      rw [List.foldlM_cons] at h
      obtain ⟨m1, h1, h⟩ := Res.bind_eq_ok.1 h
      obtain ⟨x, _, h1⟩ := Res.bind_eq_ok.1 h1
      cases h1
      rw [ih _ _ h]
      simp
      omega
  have ho : ∀ (is : List Nat) (m m' : List Nat), is.foldlM (fun (memo : List Nat) input => g.allStates.foldlM (fun (memo : List Nat) src => do
      let dst ← g.transition64 src (BitVec.ofNat 64 input) d
      pure (memo ++ [dst])) memo) m = (.ok m' : Res (List Nat)) → m'.length = m.length + is.length * g.size := by
    intro is
    induction is with
    | nil => intro m m' h; cases h; simp
    | cons s is ih =>
      intro m m' h
      rw [List.foldlM_cons] at h
      obtain ⟨m1, h1, h⟩ := Res.bind_eq_ok.1 h
      rw [ih _ _ h, hi _ _ _ _ h1, List.length_cons, Nat.add_mul]
      have : g.allStates.length = g.size := by simp [Graph.allStates]
      omega
  have := ho _ _ _ h
  simpa [hc] using this

theorem flutMake_sizes {g : Graph} {max queue boot : Nat} {sanitize : Bool} {r : Flut N l} (h : Flut.make g max queue boot sanitize = .ok r) :
    r.weight.length = g.size ∧ r.queued = [] ∧ r.queueSize = queue ∧ r.tableEntries = (2 ^ (queue + 1) - 1) * g.size := by
  unfold Flut.make at h
  cases sanitize with
  | true => cases h
  | false =>
    dsimp only at h
    rw [if_neg (by decide)] at h
    obtain ⟨w, h1, h⟩ := Res.bind_eq_ok.1 h
    obtain ⟨memo, h2, h⟩ := Res.bind_eq_ok.1 h
    cases h
    refine ⟨?_, rfl, rfl, ?_⟩
    · refine foldlM_inv_keeps (Q := fun w : List (TRLWE N) => w.length = g.size) (fun s x s' hs hf => ?_) (List.length_replicate ..) h1
      split at hf
      · obtain ⟨f, _, hf⟩ := Res.bind_eq_ok.1 hf
        exact (vset_length hf).trans hs
      · cases hf; exact hs
    · show (memo.map List.length).sum = _
      have key : ∀ k memo, (List.range k).foldlM (fun (memo : List (List Nat)) depth => do
          let row ← memoRow g depth
          pure (memo ++ [row])) [] = (.ok memo : Res (List (List Nat))) → (memo.map List.length).sum = (2 ^ k - 1) * g.size := by
        intro k
        induction k with
        | zero => intro memo h; cases h; simp
        | succ k ih =>
          intro memo h
          rw [List.range_succ, List.foldlM_append] at h
          obtain ⟨m1, h1, h⟩ := Res.bind_eq_ok.1 h
          rw [List.foldlM_cons] at h
          obtain ⟨m2, h3, h⟩ := Res.bind_eq_ok.1 h
          cases h
          obtain ⟨row, h4, h3⟩ := Res.bind_eq_ok.1 h3
          cases h3
          rw [List.map_append, List.sum_append, ih _ h1]
          simp only [List.map_cons, List.map_nil, List.sum_cons, List.sum_nil, memoRow_length h4]
          have : 0 < 2 ^ k := Nat.pos_of_ne_zero (by simp)
          rw [show 2 ^ (k + 1) - 1 = (2 ^ k - 1) + 2 ^ k by rw [Nat.pow_succ]; omega, Nat.add_mul]
          omega
      exact key _ _ h2

end Homfa
