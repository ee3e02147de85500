import Verif.Proof.Count
import Verif.Props.Text
import Verif.Props.Calls

/-!
# C71: how much work a run does

The calls of the library made by a run (`Comp.kinds`: which function, in order) are counted.  What the runners record in their timers, which
the benchmark prints, and what `run offline` announces before it starts are the numbers of calls made.
-/

namespace Homfa

variable {N n l : Nat} {S : Scheme N n l}

/-- **C71**, OFFLINE and REVERSE: after any ciphertexts, the timer has grown by the number of calls made, for each kind of operation. -/
theorem C71_backstream_timer (S : Scheme N n l) (cs : List (Gsw l N)) (r r' : Backstream N)
    (h : cs.foldlM (fun r c => r.eval S c) r = .ok r') (t : Target) :
    recorded t r'.timer = recorded t r.timer + ((cs.foldlM Backstream.evalC r : Comp N n l (Backstream N)).kinds S).count t.kind := by
  have h' : (cs.foldlM Backstream.evalC r : Comp N n l (Backstream N)).run S = .ok r' := by
    rw [Comp.run_foldlM, ← h]; simp only [Backstream.evalC_run]
  obtain ⟨e, e1, e2⟩ := foldl_records Backstream.timer (fun _ _ _ => Backstream.evalC_records) cs _ _ h'
  rw [e1, recorded_append, e2 t]

/-- **C71**, BLOCK: after any ciphertexts and the result, the timer has grown by the number of calls made, for each kind of operation. -/
theorem C71_block_timer (S : Scheme N n l) (cs : List (Gsw l N)) (r : Block N l) (c : TLWE N) (r' : Block N l)
    (h : (cs.foldlM (fun r c => r.evalOne S c) r >>= fun r => r.result S) = .ok (c, r')) (t : Target) :
    recorded t r'.timer = recorded t r.timer +
      ((cs.foldlM Block.evalOneC r >>= Block.resultC : Comp N n l (TLWE N × Block N l)).kinds S).count t.kind := by
  have h' : (cs.foldlM Block.evalOneC r >>= Block.resultC : Comp N n l (TLWE N × Block N l)).run S = .ok (c, r') := by
    rw [Comp.run_bind, Comp.run_foldlM, ← h]; simp only [Block.evalOneC_run, Block.resultC_run]
  obtain ⟨r1, h1, h2, h3⟩ := Comp.bind_inv h'
  obtain ⟨e, e1, e2⟩ := foldl_records Block.timer (fun _ _ _ => Block.evalOneC_records) cs _ _ h1
  obtain ⟨f, f1, f2⟩ := Block.resultC_records h2
  rw [f1, e1, h3, recorded_append, recorded_append, e2 t, f2 t, List.count_append, Nat.add_assoc]

/-- **C71**, `run offline`: the number announced as "Total #CMUX" is the number of CMUX gates evaluated, and both are the sum, over the positions
`j` of the input, of the number of states of the minimal DFA that are reached by `j` bits. -/
theorem C71_offline_total (S : Scheme N n l) (spec : List Char) (g : Graph) (hg : Graph.fromIstream spec = .ok g) (hs : 0 < g.size)
    (cs : List (Gsw l N)) (boot : Nat) (c : TLWE N) (h : doRunOffline S spec cs.length cs boot false = .ok c) :
    ∃ m D, g.minimized = .ok m ∧ Levels m [m.init] D ∧
      (∃ r : Backstream N, offlineMake m cs.length boot true false = .ok r ∧
        r.totalCmux cs.length = .ok (∑ j ∈ Finset.range cs.length, (D j).length)) ∧
      ((doRunOfflineC spec cs.length cs boot false : Comp N n l (TLWE N)).kinds S).count .cmux =
        ∑ j ∈ Finset.range cs.length, (D j).length := by
  obtain ⟨m, hm, wf, -⟩ := Graph.minimized_good (wf_of_fromIstream hg hs)
  obtain ⟨r, h1, h2, -, h4, -, h6, -⟩ := Backstream.make_weight (N := N) wf boot (some cs.length)
  have hD : ∀ j, r.graph.statesAtDepthAt j = if j < cs.length then .ok (m.levelSet [m.init] j) else vat ([] : List (List Nat)) 0 := by
    intro j
    rw [h2]
    unfold Graph.statesAtDepthAt
    by_cases hj : j < cs.length
    · rw [if_pos hj]; simp [vat, hj]
    · rw [if_neg hj]; simp [vat, hj]
  refine ⟨m, m.levelSet [m.init], hm, levels_levelSet wf (by simp) (by simpa using wf.init_lt), ⟨r, h1, ?_⟩, ?_⟩
  · obtain ⟨x, hx, e⟩ := foldlM_range_inv (I := fun i cnt => cnt = ∑ j ∈ Finset.range i, (m.levelSet [m.init] j).length)
      (f := fun (cnt : Nat) j => do
          let sts ← r.graph.statesAtDepthAt j
          (pure (cnt + sts.length) : Res Nat)) cs.length (b := 0) (by simp) (by
        intro i cnt hi e
        rw [hD, if_pos hi, Res.bind_ok]
        exact ⟨_, rfl, by rw [e, Finset.sum_range_succ]⟩)
    rw [Backstream.totalCmux, hx, e]
  · rw [← doRunOfflineC_run] at h
    unfold doRunOfflineC at h ⊢
    obtain ⟨_, e0, h, e⟩ := Comp.ret_inv h; rw [e]; clear e
    cases hg.symm.trans e0
    obtain ⟨_, e0, h, e⟩ := Comp.ret_inv h; rw [e]; clear e
    cases hm.symm.trans e0
    obtain ⟨_, e0, h, e⟩ := Comp.ret_inv h; rw [e]; clear e
    cases h1.symm.trans e0
    obtain ⟨_, e0, h, e⟩ := Comp.ret_inv h; rw [e]; clear e
    obtain ⟨r', h5, h, e⟩ := Comp.bind_inv h; rw [e]; clear e
    have h31 := offline_small h6 h4 h5
    rw [show ∀ x : Res (TLWE N), (.ret x : Comp N n l _).kinds S = [] from fun _ => rfl, List.append_nil,
      backstream_total (sz := fun np => (m.levelSet [m.init] (cs.length - 1 - np)).length) (M := cs.length) ?_ cs r r' (by rw [h6]; omega) rfl h4 h5, h6]
    · simp only [Nat.zero_add]
      exact Finset.sum_range_reflect (fun j => (m.levelSet [m.init] j).length) cs.length
    · intro np sts hnp he
      unfold evalStates at he
      dsimp only at he
      obtain ⟨_, hc, he⟩ := Res.bind_eq_ok.1 he
      rw [hD] at he
      unfold cassert at hc
      split at hc
      · next =>
        rw [narrow_eq (by omega) (by omega)] at he
        rw [if_pos (by omega)] at he
        cases he
        rw [show ((cs.length : Int) - np - 1).toNat = cs.length - 1 - np by omega]
      · cases hc

/-- **C71**, `run reverse`: one CMUX gate per ciphertext and state of the automaton that is walked, whatever files are written. -/
theorem C71_reverse_total (S : Scheme N n l) (spec : List Char) (g : Graph) (hg : Graph.fromIstream spec = .ok g)
    (size : Nat) (cs : List (Gsw l N)) (outFile outDir : Option String) (outFreq boot : Nat) (isRev : Bool) (files : List (OutFile × TLWE N))
    (h : doRunReverse S spec size cs outFile outDir outFreq boot isRev false = .ok files) :
    ∃ m, (if isRev then .ok g else g.reversed >>= Graph.minimized) = .ok m ∧
      ((doRunReverseC spec size cs outFile outDir outFreq boot isRev false : Comp N n l _).kinds S).count .cmux = cs.length * m.size := by
  rw [← doRunReverseC_run] at h
  unfold doRunReverseC at h ⊢
  obtain ⟨_, _, h, e⟩ := Comp.ret_inv h; rw [e]; clear e
  obtain ⟨_, e0, h, e⟩ := Comp.ret_inv h; rw [e]; clear e
  cases hg.symm.trans e0
  obtain ⟨r, e0, h, e⟩ := Comp.ret_inv h; rw [e]; clear e
  obtain ⟨p, h5, h, e⟩ := Comp.bind_inv h; rw [e]; clear e
  obtain ⟨_, _, h, e⟩ := Comp.ret_inv h; rw [e]; clear e
  obtain ⟨_, _, h, e⟩ := Comp.ret_inv h; rw [e]; clear e
  unfold reverseMake at e0
  obtain ⟨m, hm, e0⟩ := Res.bind_eq_ok.1 e0
  obtain ⟨h6, h7⟩ := onlineLoopC_reverse_calls _ _ _ _ _ _ h5
  refine ⟨m, hm, ?_⟩
  have hr : r.graph = m ∧ r.inputSize = none := by
    unfold Backstream.make at e0
    obtain ⟨_, _, e0⟩ := Res.bind_eq_ok.1 e0
    simp only [Bool.false_eq_true, if_false] at e0
    obtain ⟨g', hg', e0⟩ := Res.bind_eq_ok.1 e0
    obtain ⟨_, _, e0⟩ := Res.bind_eq_ok.1 e0
    cases hg'
    cases e0
    exact ⟨rfl, rfl⟩
  rw [Comp.kinds_pure, List.append_nil, h7, backstream_total (sz := fun _ => m.size) ?_ cs r _ (Nat.le_refl _) hr.1 hr.2 h6]
  · simp
  · intro np sts hnp he
    cases he
    simp [Graph.allStates]

/-- **C71**, BLOCK: a block of `k` ciphertexts takes one CMUX gate for every position in it and every state that can be reached there; if more than
one state was live before it, then also a circuit bootstrapping for each bit of the number of the state, and a lookup table over these bits. -/
theorem C71_block_work (S : Scheme N n l) (r r' : Block N l) (hg : r.graph.WF) (hl : SSorted r.live) (hlt : ∀ q ∈ r.live, q < r.graph.size)
    (hq : r.queued ≠ []) (hint : r.queued.length ≤ 2 ^ 31) (h : r.evalQueued S = .ok r') :
    ∃ D, Levels r.graph r.live D ∧ r'.live = D r.queued.length ∧
      let gates := ∑ j ∈ Finset.range r.queued.length, (D j).length
      let bits := if r.live.length = 1 then 0 else Nat.log2 r.live.length + 1
      ((r.evalQueuedC : Comp N n l _).kinds S).count .cmux = gates + (2 ^ bits - 1) ∧
      ((r.evalQueuedC : Comp N n l _).kinds S).count .circuitBootstrapping = bits ∧
      ((r.evalQueuedC : Comp N n l _).kinds S).length = gates + (2 ^ bits - 1) + bits := by
  rw [← Block.evalQueuedC_run] at h
  obtain ⟨_, _, _, h1⟩ := Block.evalQueuedC_records h
  obtain ⟨d, hd, h2, h3⟩ := h1 (by simpa using hq)
  rw [countDown_eq hint] at h3
  have hins : sinsertAll [] r.live = r.live := (sorted_sinsertAll List.Pairwise.nil).ext hl (by simp)
  rw [Graph.trackLiveStates_ok hg hlt, hins] at hd
  have hd' : d = (List.range (r.queued.length + 1)).map (r.graph.levelSet r.live) := by
    cases hd
    rw [List.range_succ_eq_map, List.map_cons, List.map_map]
    rfl
  have hsum : ((d.take r.queued.length).map List.length).sum = ∑ j ∈ Finset.range r.queued.length, (r.graph.levelSet r.live j).length := by
    rw [hd', List.range_succ, List.map_append, List.take_left' (by simp), List.map_map]
    rfl
  refine ⟨r.graph.levelSet r.live, levels_levelSet hg hl hlt, ?_, ?_⟩
  · rw [h2, hd', List.range_succ, List.map_append]; simp
  · dsimp only
    rw [h3, hsum]
    by_cases h1 : r.live.length = 1
    · rw [if_pos h1, if_pos h1]; simp [List.count_replicate]
    · rw [if_neg h1, if_neg h1]; simp [List.count_replicate]; omega

/-- **C71**, FLUT: a block of `k` ciphertexts is cut into two lookup tables, of depths `a` and `b`, with `2 ^ a - 1` and `2 ^ b - 1` CMUX gates; every
live state costs one packing into a TRLWE, and in every `boot`-th block a bootstrapping. -/
theorem C71_flut_work (S : Scheme N n l) (r r' : Flut N l) (hq : r.queued ≠ []) (h : r.evalQueued S = .ok r') :
    ∃ a b, a + b = r.queued.length ∧
      let boots := if (r.numEval + 1) % r.bootFreq = 0 then r'.live.length else 0
      ((r.evalQueuedC : Comp N n l _).kinds S).count .cmux = (2 ^ a - 1) + (2 ^ b - 1) ∧
      ((r.evalQueuedC : Comp N n l _).kinds S).count .toTrlwe = r'.live.length ∧
      ((r.evalQueuedC : Comp N n l _).kinds S).count .blindRotate = boots ∧
      ((r.evalQueuedC : Comp N n l _).kinds S).count .keySwitch = boots ∧
      ((r.evalQueuedC : Comp N n l _).kinds S).count .circuitBootstrapping = 0 := by
  rw [← Flut.evalQueuedC_run] at h
  obtain ⟨h1, h2, -⟩ := Flut.evalQueuedC_kinds h (by simpa using hq)
  refine ⟨r'.first, r'.second, h2, ?_⟩
  dsimp only
  rw [h1]
  by_cases hd : (r.numEval + 1) % r.bootFreq = 0
  · simp only [if_pos hd, List.count_append, count_flatten_replicate, List.count_replicate]; simp
  · simp only [if_neg hd, List.count_append, count_flatten_replicate, List.count_replicate]; simp

/-- The DFA of a parity and encryptions of two bits: the calls of the four commands, with a bootstrapping after every ciphertext or block. -/
example : let S := toyScheme 4 2 1 ⟨fun _ => 0#32, fun _ => 0#32⟩
    let spec := ">0* 0 1\n1 1 0\n".toList
    let cs := [S.encrypt 0 true, S.encrypt 1 false]
    (doRunOfflineC spec 2 cs 2 false : Comp 4 2 1 _).kinds S = [.cmux, .cmux, .cmux, .keySwitch, .blindRotate] ∧
    (doRunReverseC spec 2 cs (some "f") none 1 2 true false : Comp 4 2 1 _).kinds S =
      [.cmux, .cmux, .cmux, .cmux, .keySwitch, .blindRotate, .keySwitch, .blindRotate] ∧
    (doRunBlockC spec cs 1 false : Comp 4 2 1 _).kinds S =
      [.cmux, .cmux, .cmux, .circuitBootstrapping, .circuitBootstrapping, .cmux, .cmux, .cmux] ∧
    (doRunFlutC spec 2 cs (some "f") none 1 2 1 none false : Comp 4 2 1 _).kinds S =
      [.cmux, .cmux, .keySwitch, .blindRotate, .toTrlwe, .keySwitch, .blindRotate, .toTrlwe] := by
  refine ⟨?_, ?_, ?_, ?_⟩ <;> decide +kernel

end Homfa
