import Verif.Props.Determinize
import Verif.Spec.Par
import Verif.Spec.History
import Verif.Proof.ParFree
import Verif.Proof.Block
import Verif.Proof.Backstream
import Verif.Model.Flut
import Verif.Model.Online1

/-!
# C35 (parallel loops)

One theorem per parallel loop: the list of tasks that the model hands to `parFor` is `ScheduleFree` (Spec/Par.lean), for every size, every
ciphertext and every reachable list of states.
-/

namespace Homfa

variable {N n l : Nat}

/-! ## OFFLINE and REVERSE -/

theorem Backstream.eval_keeps {S : Scheme N n l} {r r' : Backstream N} {c : Gsw l N} (h : r.eval S c = .ok r') :
    r'.graph = r.graph ∧ r'.inputSize = r.inputSize := by
  unfold Backstream.eval at h
  dsimp only at h
  obtain ⟨sts, _, h⟩ := Res.bind_eq_ok.1 h
  obtain ⟨m, _, h⟩ := Res.bind_eq_ok.1 h
  obtain ⟨p, _, h⟩ := Res.bind_eq_ok.1 h
  split at h
  · cases h
  · split at h
    · unfold Backstream.bootstrapWeight at h
      obtain ⟨m, _, h⟩ := Res.bind_eq_ok.1 h
      obtain ⟨q, _, h⟩ := Res.bind_eq_ok.1 h
      cases h
      exact ⟨rfl, rfl⟩
    · cases h
      exact ⟨rfl, rfl⟩

theorem Backstream.evalAll_keeps {S : Scheme N n l} {r r' : Backstream N} {cs : List (Gsw l N)} (h : r.evalAll S cs = .ok r') :
    r'.graph = r.graph ∧ r'.inputSize = r.inputSize := by
  unfold Backstream.evalAll at h
  induction cs generalizing r with
  | nil => cases h; exact ⟨rfl, rfl⟩
  | cons c cs ih =>
    rw [List.foldlM_cons] at h
    obtain ⟨r1, h1, h⟩ := Res.bind_eq_ok.1 h
    obtain ⟨e1, e2⟩ := eval_keeps h1
    obtain ⟨f1, f2⟩ := ih h
    exact ⟨f1.trans e1, f2.trans e2⟩

/-- the states updated by a runner are distinct -/
theorem Backstream.evalStates_nodup (hN : 0 < N) {g : Graph} (hg : g.WF) {boot : Nat} {isz : Option Nat} {r : Backstream N}
    (h1 : Backstream.make g boot isz true false = .ok r) {k : Nat} {sts : List Nat}
    (h3 : evalStates r.graph r.inputSize k = .ok sts) : sts.Nodup := by
  obtain ⟨r0, k1, k2, k3, k4, _⟩ := Backstream.make_ok (n := 0) (l := 0) hg hN boot isz
  rw [h1] at k1
  cases k1
  rw [k2, k4] at h3
  cases isz with
  | none =>
    cases h3
    exact List.nodup_range
  | some m =>
    unfold evalStates at h3
    dsimp only at h3
    obtain ⟨_, _, h3⟩ := Res.bind_eq_ok.1 h3
    have h3 : vat ((List.range m).map (g.levelSet [g.init])) _ = .ok sts := h3
    have := List.mem_of_getElem? (vat_eq_ok.1 h3)
    obtain ⟨j, _, rfl⟩ := List.mem_map.1 this
    exact (Graph.sorted_levelSet (by simp) _).nodup

/-- the states updated by a reachable runner are distinct -/
theorem Backstream.states_nodup {S : Scheme N n l} (hN : 0 < N) {g : Graph} (hg : g.WF) {boot : Nat} {isz : Option Nat} {r r' : Backstream N}
    {cs : List (Gsw l N)} (h1 : Backstream.make g boot isz true false = .ok r) (h2 : r.evalAll S cs = .ok r') {sts : List Nat}
    (h3 : evalStates r'.graph r'.inputSize r'.numProcessed = .ok sts) : sts.Nodup := by
  obtain ⟨e1, e2⟩ := Backstream.evalAll_keeps h2
  rw [e1, e2] at h3
  exact Backstream.evalStates_nodup hN hg h1 h3

theorem backstreamTask_within (S : Scheme N n l) (g : Graph) (c : Gsw l N) (q : Nat) :
    (backstreamTask S g c q).Within (fun v _ => v = 1) (fun v i => v = 0 ∧ i = q) :=
  .local fun _ _ => .local fun _ _ => .read (.inl rfl) fun _ => .read (.inl rfl) fun _ => .write ⟨rfl, rfl⟩ .ret

/-- **C35 (OFFLINE, REVERSE: update).** The CMUX loop of every evaluation step of every runner, whatever was fed before. -/
theorem C35_backstream_update (S : Scheme N n l) (hN : 0 < N) (g : Graph) (hg : g.WF) (boot : Nat) (isz : Option Nat)
    (r r' : Backstream N) (cs : List (Gsw l N)) (hr : Backstream.make g boot isz true false = .ok r) (hr' : r.evalAll S cs = .ok r')
    (states : List Nat) (hs : evalStates r'.graph r'.inputSize r'.numProcessed = .ok states) (c : Gsw l N) :
    ScheduleFree (states.map (backstreamTask S r'.graph c)) :=
  scheduleFree_map (Backstream.states_nodup hN hg hr hr' hs) (fun v _ => v = 1) (fun _ _ h => by simp at h)
    (fun q _ => backstreamTask_within S _ c q)

/-- **C35 (OFFLINE, REVERSE: bootstrapping).** -/
theorem C35_backstream_bootstrap (S : Scheme N n l) (hN : 0 < N) (g : Graph) (hg : g.WF) (boot : Nat) (isz : Option Nat)
    (r r' : Backstream N) (cs : List (Gsw l N)) (hr : Backstream.make g boot isz true false = .ok r) (hr' : r.evalAll S cs = .ok r')
    (states : List Nat) (hs : evalStates r'.graph r'.inputSize r'.numProcessed = .ok states) :
    ScheduleFree (states.map (bootTask S)) :=
  scheduleFree_map (Backstream.states_nodup hN hg hr hr' hs) (fun _ _ => False) (fun _ _ h => h)
    (fun _ _ => .read (.inr ⟨rfl, rfl⟩) fun _ => .local fun _ _ => .write ⟨rfl, rfl⟩ .ret)

/-! ## Lookup tables -/

/-- **C35 (lookup table).** One CMUX layer of `lookup_table`. -/
theorem C35_lookup_layer (S : Scheme N n l) (c : Gsw l N) (cnt : Nat) : ScheduleFree ((List.range cnt).map (lutTask S c)) :=
  scheduleFree_map List.nodup_range (fun v _ => v = 1) (fun _ _ h => by simp at h)
    (fun _ _ => .read (.inl rfl) fun _ => .read (.inl rfl) fun _ => .write ⟨rfl, rfl⟩ .ret)

/-! ## BLOCK -/

theorem Block.eval_keeps {S : Scheme N n l} {r r' : Block N l} (h : r.evalQueued S = .ok r') (hg : r.graph.WF) (hs : SSorted r.live)
    (hl : ∀ q ∈ r.live, q < r.graph.size) : r'.graph = r.graph ∧ SSorted r'.live ∧ ∀ q ∈ r'.live, q < r.graph.size := by
  unfold Block.evalQueued at h
  dsimp only at h
  split at h
  · cases h; exact ⟨rfl, hs, hl⟩
  · rw [Graph.track_ok' hg hs hl, Res.bind_ok] at h
    have hnext : ((List.range (r.queued.length + 1)).map (r.graph.levelSet r.live)).getLastD [] = r.graph.levelSet r.live r.queued.length := by
      rw [List.range_succ, List.map_append]; simp
    rw [hnext] at h
    have hres : ∀ live', live' = r.graph.levelSet r.live r.queued.length → SSorted live' ∧ ∀ q ∈ live', q < r.graph.size := by
      rintro _ rfl
      exact ⟨Graph.sorted_levelSet hs _, Graph.levelSet_lt hl _⟩
    obtain ⟨_, _, h⟩ := Res.bind_eq_ok.1 h
    obtain ⟨_, _, h⟩ := Res.bind_eq_ok.1 h
    split at h
    · obtain ⟨_, _, h⟩ := Res.bind_eq_ok.1 h
      obtain ⟨_, _, h⟩ := Res.bind_eq_ok.1 h
      cases h
      exact ⟨rfl, hres _ rfl⟩
    · obtain ⟨_, _, h⟩ := Res.bind_eq_ok.1 h
      obtain ⟨_, _, h⟩ := Res.bind_eq_ok.1 h
      obtain ⟨_, _, h⟩ := Res.bind_eq_ok.1 h
      obtain ⟨_, _, h⟩ := Res.bind_eq_ok.1 h
      obtain ⟨_, _, h⟩ := Res.bind_eq_ok.1 h
      obtain ⟨_, _, h⟩ := Res.bind_eq_ok.1 h
      obtain ⟨_, _, h⟩ := Res.bind_eq_ok.1 h
      obtain ⟨_, _, h⟩ := Res.bind_eq_ok.1 h
      obtain ⟨_, _, h⟩ := Res.bind_eq_ok.1 h
      cases h
      exact ⟨rfl, hres _ rfl⟩

theorem Block.one_keeps {S : Scheme N n l} {r r' : Block N l} {c : Gsw l N} (h : r.evalOne S c = .ok r') (hg : r.graph.WF)
    (hs : SSorted r.live) (hl : ∀ q ∈ r.live, q < r.graph.size) :
    r'.graph = r.graph ∧ SSorted r'.live ∧ ∀ q ∈ r'.live, q < r.graph.size := by
  unfold Block.evalOne at h
  dsimp only at h
  split at h
  · cases h; exact ⟨rfl, hs, hl⟩
  · exact Block.eval_keeps (r := { r with queued := r.queued ++ [c] }) h hg hs hl

theorem Block.calls_keeps {S : Scheme N n l} (cs : List (Call (Gsw l N))) {r r' : Block N l} {outs : List (TLWE N)}
    (h : runCalls (fun r c => Block.evalOne S r c) (fun r => Block.result S r) r cs = .ok (outs, r')) (hg : r.graph.WF)
    (hs : SSorted r.live) (hl : ∀ q ∈ r.live, q < r.graph.size) :
    r'.graph = r.graph ∧ SSorted r'.live ∧ ∀ q ∈ r'.live, q < r.graph.size := by
  induction cs generalizing r outs with
  | nil => cases h; exact ⟨rfl, hs, hl⟩
  | cons c cs ih =>
    cases c with
    | feed x =>
      rw [runCalls] at h
      obtain ⟨r1, h1, h⟩ := Res.bind_eq_ok.1 h
      obtain ⟨e1, e2, e3⟩ := Block.one_keeps h1 hg hs hl
      have := ih h (by rw [e1]; exact hg) e2 (by rw [e1]; exact e3)
      rw [e1] at this
      exact this
    | result =>
      rw [runCalls] at h
      obtain ⟨⟨c, r1⟩, h1, h⟩ := Res.bind_eq_ok.1 h
      obtain ⟨⟨bs, r2⟩, h2, h⟩ := Res.bind_eq_ok.1 h
      cases h
      unfold Block.result at h1
      obtain ⟨r3, h3, h1⟩ := Res.bind_eq_ok.1 h1
      have hr : r1 = r3 := by
        split at h1
        · obtain ⟨_, _, h1⟩ := Res.bind_eq_ok.1 h1
          cases h1; rfl
        · cases h1
      subst hr
      obtain ⟨e1, e2, e3⟩ := Block.eval_keeps h3 hg hs hl
      have := ih h2 (by rw [e1]; exact hg) e2 (by rw [e1]; exact e3)
      rw [e1] at this
      exact this

/-- **C35 (BLOCK: propagation).** The CMUX loop for every depth `i` of every evaluation of the queue, after any history of calls. -/
theorem C35_block_propagate (S : Scheme N n l) (g : Graph) (hg : g.WF) (qs : Nat) (r r' : Block N l) (cs : List (Call (Gsw l N)))
    (outs : List (TLWE N)) (hr : Block.make g qs false = .ok r)
    (hr' : runCalls (fun r c => Block.evalOne S r c) (fun r => Block.result S r) r cs = .ok (outs, r'))
    (queued : List (Gsw l N)) (atDepth : List (List Nat)) (hd : r'.graph.trackLiveStates r'.live queued.length = .ok atDepth)
    (i : Nat) (states : List Nat) (hs : vat atDepth i = .ok states) :
    ScheduleFree (states.map (blockTask S r'.graph queued i)) := by
  cases hr
  have hi : ∀ q ∈ [g.init], q < g.size := by intro q hq; simp at hq; subst hq; exact hg.init_lt
  obtain ⟨e1, e2, e3⟩ := Block.calls_keeps cs hr' hg (by exact List.pairwise_singleton _ _) hi
  rw [Graph.track_ok' (by rw [e1]; exact hg) e2 (by rw [e1]; exact e3)] at hd
  cases hd
  obtain ⟨j, _, rfl⟩ := List.mem_map.1 (List.mem_of_getElem? (vat_eq_ok.1 hs))
  exact scheduleFree_map (Graph.sorted_levelSet e2 _).nodup (fun v _ => v = 1) (fun _ _ h => by simp at h)
    (fun _ _ => .local fun _ _ => .local fun _ _ => .read (.inl rfl) fun _ => .read (.inl rfl) fun _ => .local fun _ _ =>
      .write ⟨rfl, rfl⟩ .ret)

/-- **C35 (BLOCK: extraction of the selector bits).** -/
theorem C35_block_extract (sel : TRLWE N) (width : Nat) : ScheduleFree ((List.range width).map (extractTask sel)) :=
  scheduleFree_map List.nodup_range (fun _ _ => False) (fun _ _ h => h) (fun _ _ => .local fun _ _ => .write ⟨rfl, rfl⟩ .ret)

/-- **C35 (BLOCK: circuit bootstrapping).** -/
theorem C35_block_circuit_bootstrap (S : Scheme N n l) (ws4 : List (TLWE N)) (width : Nat) :
    ScheduleFree ((List.range width).map (cbTask S ws4)) :=
  scheduleFree_map List.nodup_range (fun _ _ => False) (fun _ _ h => h) (fun _ _ => .local fun _ _ => .write ⟨rfl, rfl⟩ .ret)

/-! ## FLUT -/

theorem fillTask_within (g : Graph) (memo st2idx : List Nat) (first m input1 : Nat) (pairs : List (Nat × Nat)) :
    (fillTask (N := N) g memo st2idx first m input1 pairs).Within (fun v _ => v = 1) (fun v i => v = 0 ∧ i = input1) := by
  induction pairs with
  | nil => exact .ret
  | cons p pairs ih =>
    obtain ⟨s, i⟩ := p
    exact .local fun _ _ => .read (.inl rfl) fun _ => .local fun _ _ => .local fun _ _ => .read (.inr ⟨rfl, rfl⟩) fun _ => .write ⟨rfl, rfl⟩ ih

/-- **C35 (FLUT: filling the table).** -/
theorem C35_flut_fill (g : Graph) (memo st2idx : List Nat) (first m cnt : Nat) (pairs : List (Nat × Nat)) :
    ScheduleFree ((List.range cnt).map fun input1 => fillTask (N := N) g memo st2idx first m input1 pairs) :=
  scheduleFree_map List.nodup_range (fun v _ => v = 1) (fun _ _ h => by simp at h) (fun _ _ => fillTask_within ..)

/-- **C35 (FLUT: rotations).** Every task reads entry 0 and no task writes it. -/
theorem C35_flut_rotate (N m cnt : Nat) : ScheduleFree ((List.range cnt).map fun i => rotTask N m (i + 1)) := by
  have : (List.range cnt).map (fun i => rotTask N m (i + 1)) = ((List.range cnt).map (· + 1)).map (rotTask N m) := by
    rw [List.map_map]; rfl
  rw [this]
  refine scheduleFree_map (List.nodup_range.map (fun a b h => by omega)) (fun v i => v = 0 ∧ i = 0) ?_
    (fun _ _ => .read (.inr ⟨rfl, rfl⟩) fun _ => .read (.inl ⟨rfl, rfl⟩) fun _ => .local fun _ _ => .write ⟨rfl, rfl⟩ .ret)
  rintro q hq ⟨_, rfl⟩
  obtain ⟨a, _, ha⟩ := List.mem_map.1 hq
  omega

theorem foldlM_keeps {α β : Type} {P : β → Prop} {f : β → α → Res β} (hf : ∀ b x b', P b → f b x = .ok b' → P b') (xs : List α) {b b' : β}
    (h0 : P b) (h : xs.foldlM f b = .ok b') : P b' := by
  induction xs generalizing b with
  | nil => cases h; exact h0
  | cons x xs ih =>
    rw [List.foldlM_cons] at h
    obtain ⟨b1, h1, h⟩ := Res.bind_eq_ok.1 h
    exact ih (hf _ _ _ h0 h1) h

theorem flutNext_sorted {g : Graph} {memo live : List Nat} {k : Nat} {next : List Nat} (h : flutNext g memo live k = .ok next) :
    SSorted next := by
  unfold flutNext at h
  obtain ⟨cnt, _, h⟩ := Res.bind_eq_ok.1 h
  refine foldlM_keeps (P := SSorted) (fun tmp input tmp' h0 h => ?_) _ (by simp) h
  refine foldlM_keeps (P := SSorted) (fun tmp s tmp' h0 h => ?_) _ h0 h
  obtain ⟨x, _, h⟩ := Res.bind_eq_ok.1 h
  cases h
  exact sorted_sinsert h0

/-- **C35 (FLUT: splitting the result).** `next` is what the runner computed as the next live states. -/
theorem C35_flut_split (S : Scheme N n l) (g : Graph) (memo live : List Nat) (k : Nat) (next : List Nat)
    (hn : flutNext g memo live k = .ok next) (st2idx : List Nat) (boot : Bool) :
    ScheduleFree (next.map (splitTask S st2idx boot)) :=
  scheduleFree_map (flutNext_sorted hn).nodup (fun v _ => v = 1) (fun _ _ h => by simp at h)
    (fun _ _ => .read (.inl rfl) fun _ => .local fun _ _ => .local fun _ _ => .local fun _ _ => .write ⟨rfl, rfl⟩ .ret)

/-! ## The first online runner -/

theorem sumTask_within {R W : Nat → Nat → Prop} (hR : ∀ i, R 1 i) (ps : List Nat) (acc : TRLWE N) {k : TRLWE N → Prog (TRLWE N)}
    (hk : ∀ x, (k x).Within R W) : (sumTask ps acc k).Within R W := by
  induction ps generalizing acc with
  | nil => exact hk acc
  | cons p ps ih => exact .read (.inl (hR p)) fun _ => ih _

/-- **C35 (first online runner: update).** -/
theorem C35_online1_update (S : Scheme N n l) (g : Graph) (c : Gsw l N) : ScheduleFree (g.allStates.map (online1Task S g c)) :=
  scheduleFree_map List.nodup_range (fun v _ => v = 1) (fun _ _ h => by simp at h)
    (fun _ _ => .local fun _ _ => .local fun _ _ => sumTask_within (fun _ => rfl) _ _ fun _ => sumTask_within (fun _ => rfl) _ _ fun _ =>
      .write ⟨rfl, rfl⟩ .ret)

/-- **C35 (first online runner: bootstrapping).** -/
theorem C35_online1_bootstrap (S : Scheme N n l) (k : Nat) : ScheduleFree ((List.range k).map (bootEighthTask S)) :=
  scheduleFree_map List.nodup_range (fun _ _ => False) (fun _ _ h => h)
    (fun _ _ => .read (.inr ⟨rfl, rfl⟩) fun _ => .local fun _ _ => .write ⟨rfl, rfl⟩ .ret)

/-! ## The notion separates -/

/-- `ScheduleFree` is not automatic: two tasks that both increment the same element are not schedule free. -/
example : ¬ ScheduleFree [Prog.read 0 0 fun x => .write 0 0 (x + 1) .ret, Prog.read 0 0 fun (x : Nat) => .write 0 0 (x + 1) .ret] := by
  intro h
  have := h.complete [[0]] [.ret, .ret] [[1]]
    (.tail (.tail (.tail (.tail .refl
      (.step (l := []) (.read (m := [[0]]) (x := 0) rfl)))
      (.step (l := [_]) (r := []) (.read (m := [[0]]) (x := 0) rfl)))
      (.step (l := []) (.write (m := [[0]]) rfl)))
      (.step (l := [_]) (r := []) (.write (m := [[1]]) rfl)))
    (by intro p hp; simp at hp; exact hp)
  exact absurd this (by decide)

/-- A complete interleaving exists: the hypotheses of `complete` are met by two tasks that alternate. -/
example : ParExec [Prog.read 1 0 fun x => .write 0 0 x .ret, Prog.read 1 1 fun (x : Nat) => .write 0 1 x .ret] [[0, 0], [5, 6]]
    [.ret, .ret] [[5, 6], [5, 6]] :=
  .tail (.tail (.tail (.tail .refl
      (.step (l := []) (.read (x := 5) rfl)))
      (.step (l := [_]) (r := []) (.read (x := 6) rfl)))
      (.step (l := []) (.write rfl)))
      (.step (l := [_]) (r := []) (.write rfl))

/-- The runner hypotheses are met: the OFFLINE runner on the example graph, before its first input. -/
example : ∃ r : Backstream 4, Backstream.make exGraph 2 (some 3) true false = .ok r ∧
    ∃ states, evalStates r.graph r.inputSize r.numProcessed = .ok states ∧ states = [0, 1, 2] := by
  obtain ⟨r, h1, h2, h3, h4, h5, h6, _⟩ := Backstream.make_ok (N := 4) (n := 2) (l := 1) exGraph_wf (by decide) 2 (some 3)
  refine ⟨r, h1, ?_⟩
  rw [h2, h4, h6]
  exact ⟨[0, 1, 2], by decide, rfl⟩

end Homfa
