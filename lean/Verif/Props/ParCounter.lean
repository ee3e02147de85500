import Verif.Props.Par
import Verif.Props.Btt

/-!
# C35 (parallel loops of src/counter.cpp)
-/

namespace Homfa

variable {N n l : Nat}

/-- **C35 (counters: decrement).** The loop of `Counter::minus_one`. -/
theorem C35_counter_minus (S : Scheme N n l) (memo : List (TLWE n)) (width : Nat) : ScheduleFree ((List.range width).map (minusTask S memo)) :=
  scheduleFree_map List.nodup_range (fun _ _ => False) (fun _ _ h => h)
    (fun _ _ => .local fun _ _ => .local fun _ _ => .write ⟨rfl, rfl⟩ .ret)

/-- **C35 (counters: update of all counters).** The loop of `Weight::update_counters`. -/
theorem C35_counter_update (S : GateScheme N n l) (general : TRLWE N) (k : Nat) : ScheduleFree ((List.range k).map (updateTask S general)) :=
  scheduleFree_map List.nodup_range (fun _ _ => False) (fun _ _ h => h)
    (fun _ _ => .local fun _ _ => .read (.inr ⟨rfl, rfl⟩) fun _ => .local fun _ _ => .write ⟨rfl, rfl⟩ .ret)

/-- **C35 (counters: lookup table).** One layer of `lookup_table` on weights. -/
theorem C35_counter_lookup_layer (S : Scheme N n l) (c : Gsw l N) (cnt : Nat) : ScheduleFree ((List.range cnt).map (wlutTask S c)) :=
  scheduleFree_map List.nodup_range (fun v _ => v = 1) (fun _ _ h => by simp at h)
    (fun _ _ => .read (.inr ⟨rfl, rfl⟩) fun _ => .read (.inl rfl) fun _ => .read (.inl rfl) fun _ => .local fun _ _ => .write ⟨rfl, rfl⟩ .ret)

/-- every set of live states is a set, whatever the graph -/
theorem track_sorted {g : Graph} {live : List Nat} {k : Nat} {atDepth : List (List Nat)} (hs : SSorted live)
    (h : g.trackLiveStates live k = .ok atDepth) : ∀ d ∈ atDepth, SSorted d := by
  unfold Graph.trackLiveStates at h
  obtain ⟨r, h1, h⟩ := Res.bind_eq_ok.1 h
  cases h
  refine foldlM_keeps (P := fun r : List Nat × List (List Nat) => ∀ d ∈ r.2, SSorted d) (fun r _ r' h0 h => ?_) _ ?_ h1
  · obtain ⟨tmp, h2, h⟩ := Res.bind_eq_ok.1 h
    cases h
    have : SSorted tmp := by
      unfold Graph.liveRound at h2
      refine foldlM_keeps (P := SSorted) (fun t q t' h0 h => ?_) _ (by simp) h2
      obtain ⟨_, _, h⟩ := Res.bind_eq_ok.1 h
      obtain ⟨_, _, h⟩ := Res.bind_eq_ok.1 h
      cases h
      exact sorted_sinsert (sorted_sinsert h0)
    intro d hd
    rcases List.mem_append.1 hd with hd | hd
    · exact h0 d hd
    · rw [List.mem_singleton.1 hd]; exact this
  · intro d hd
    rw [List.mem_singleton.1 hd]; exact hs

theorem BttRunner.queued_keeps {S : GateScheme N n l} {r r' : BttRunner N l} {trees : Nat → RedTree} (h : r.evalQueued S trees = .ok r')
    (hs : SSorted r.live) : SSorted r'.live := by
  unfold BttRunner.evalQueued at h
  split at h
  · cases h; exact hs
  · obtain ⟨_, _, h⟩ := Res.bind_eq_ok.1 h
    obtain ⟨atDepth, h1, h⟩ := Res.bind_eq_ok.1 h
    obtain ⟨_, _, h⟩ := Res.bind_eq_ok.1 h
    obtain ⟨_, _, h⟩ := Res.bind_eq_ok.1 h
    obtain ⟨_, _, h⟩ := Res.bind_eq_ok.1 h
    obtain ⟨_, _, h⟩ := Res.bind_eq_ok.1 h
    cases h
    dsimp only
    rcases List.eq_nil_or_concat atDepth with rfl | ⟨l, d, rfl⟩
    · simp
    · rw [List.concat_eq_append, List.getLastD_concat]
      exact track_sorted hs h1 d (by simp)

theorem BttRunner.calls_keeps {S : GateScheme N n l} (cs : List (Call (Gsw l N) × (Nat → RedTree))) {r r' : BttRunner N l}
    (h : cs.foldlM (fun (r : BttRunner N l) c => match c.1 with
      | .feed x => r.evalOne S x c.2
      | .result => (r.result S c.2).map Prod.snd) r = .ok r') (hs : SSorted r.live) : SSorted r'.live := by
  refine foldlM_keeps (P := fun r : BttRunner N l => SSorted r.live) (fun r c r' h0 h => ?_) cs hs h
  obtain ⟨c, trees⟩ := c
  cases c with
  | feed x =>
    dsimp only at h
    unfold BttRunner.evalOne at h
    dsimp only at h
    split at h
    · cases h; exact h0
    · exact BttRunner.queued_keeps (r := { r with queued := r.queued ++ [x] }) h h0
  | result =>
    dsimp only at h
    cases hr : r.result S trees with
    | error e => rw [hr] at h; cases h
    | ok p =>
      rw [hr] at h
      cases h
      unfold BttRunner.result at hr
      obtain ⟨r1, h1, hr⟩ := Res.bind_eq_ok.1 hr
      obtain ⟨c, _, hr⟩ := Res.bind_eq_ok.1 hr
      cases hr
      exact BttRunner.queued_keeps h1 h0

/-- **C35 (BTT runner).** The loop of `eval_block_cmuxs` for every depth `i` of every evaluation, after any history of calls, for any BTT. -/
theorem C35_btt_block (S : GateScheme N n l) (btt : Btt) (qs : Nat) (r r' : BttRunner N l) (cs : List (Call (Gsw l N) × (Nat → RedTree)))
    (hr : BttRunner.make btt qs = .ok r)
    (hr' : cs.foldlM (fun (r : BttRunner N l) c => match c.1 with
      | .feed x => r.evalOne S x c.2
      | .result => (r.result S c.2).map Prod.snd) r = .ok r')
    (k : Nat) (atDepth : List (List Nat)) (hd : r'.graph.trackLiveStates r'.live k = .ok atDepth)
    (i : Nat) (states : List Nat) (hs : vat atDepth i = .ok states) (state : Weight N) (input : Gsw l N) :
    ScheduleFree (states.map (bttTask S.toScheme btt state input)) := by
  have h0 : SSorted r.live := by
    unfold BttRunner.make at hr
    obtain ⟨_, _, hr⟩ := Res.bind_eq_ok.1 hr
    obtain ⟨_, _, hr⟩ := Res.bind_eq_ok.1 hr
    cases hr
    exact List.pairwise_singleton _ _
  have h1 := BttRunner.calls_keeps cs hr' h0
  have h2 := track_sorted h1 hd states (List.mem_of_getElem? (vat_eq_ok.1 hs))
  exact scheduleFree_map h2.nodup (fun v _ => v = 1) (fun _ _ h => by simp at h)
    (fun _ _ => .local fun _ _ => .read (.inl rfl) fun _ => .local fun _ _ => .read (.inl rfl) fun _ => .local fun _ _ => .local fun _ _ =>
      .write ⟨rfl, rfl⟩ .ret)

/-- The hypotheses are met: the BTT of the repository's test, before its first input; two states are live after the first input. -/
example : ∃ r : BttRunner 256 1, BttRunner.make testBtt 1 = .ok r ∧ r.graph.trackLiveStates r.live 2 = .ok [[0], [4], [1, 3]] :=
  ⟨_, rfl, by decide⟩

end Homfa
