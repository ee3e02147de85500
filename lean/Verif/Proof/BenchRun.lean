import Verif.Proof.BenchLog
import Verif.Props.Block
import Verif.Props.Flut
import Verif.Props.Backstream
import Verif.Props.Minimize

/-! # The runners in the loop of the benchmark program -/

namespace Homfa.Cli

variable {N n l : Nat} {S : Scheme N n l} {δ : Noise} {Enc : Gsw l N → Bool → Prop}

/-! ## Queues -/

theorem pending_lt {f q : Nat} (hq : 0 < q) (i : Nat) : pending f q i < q := Nat.mod_lt _ hq

theorem pending_le (f q i : Nat) : pending f q i ≤ i := Nat.le_trans (Nat.mod_le _ _) (Nat.mod_le _ _)

theorem evaluated_add (f q i : Nat) : evaluated f q i + pending f q i = i := by
  unfold evaluated
  have := pending_le f q i
  omega

theorem pending_succ {f q : Nat} (hf : 0 < f) (hq : 0 < q) (i : Nat) :
    pending f q (i + 1) = if f ∣ i + 1 then 0 else if pending f q i + 1 = q then 0 else pending f q i + 1 := by
  unfold pending
  by_cases hd : f ∣ i + 1
  · rw [if_pos hd, Nat.mod_eq_zero_of_dvd hd, Nat.zero_mod]
  · rw [if_neg hd]
    have h1 : (i + 1) % f = i % f + 1 := by
      have h2 := Nat.mod_lt i hf
      have h3 : i % f + 1 ≠ f := by
        intro h
        apply hd
        rw [← Nat.div_add_mod i f, Nat.add_assoc, h]
        exact Nat.dvd_add (Nat.dvd_mul_right _ _) (Nat.dvd_refl _)
      conv_lhs => rw [← Nat.div_add_mod i f, Nat.add_assoc, Nat.mul_add_mod]
      exact Nat.mod_eq_of_lt (by omega)
    rw [h1]
    have h2 := Nat.mod_lt (i % f) hq
    conv_lhs => rw [← Nat.div_add_mod (i % f) q, Nat.add_assoc, Nat.mul_add_mod]
    by_cases h : i % f % q + 1 = q
    · rw [if_pos h, h, Nat.mod_self]
    · rw [if_neg h, Nat.mod_eq_of_lt (by omega)]

/-- the inputs of the block that is being queued -/
theorem pending_block {f q : Nat} (hf : 0 < f) (i : Nat) {j : Nat} (hj : j ≤ pending f q i) : pending f q (evaluated f q i + j) = j := by
  unfold evaluated pending at *
  have h1 := Nat.div_add_mod i f
  have h2 := Nat.mod_lt i hf
  have h3 := Nat.div_add_mod (i % f) q
  have h4 : i - i % f % q + j = f * (i / f) + (q * (i % f / q) + j) := by omega
  rw [h4, Nat.mul_add_mod, Nat.mod_eq_of_lt (show q * (i % f / q) + j < f by omega), Nat.mul_add_mod]
  by_cases hq : q = 0
  · subst hq
    simp
  · exact Nat.mod_eq_of_lt (Nat.lt_of_le_of_lt hj (Nat.mod_lt _ (by omega)))

/-- the sum over one block -/
theorem block_sum {f q : Nat} (hf : 0 < f) (i : Nat) (F : Nat → Nat) (G : Nat → Nat) :
    ∑ d ∈ Finset.range (i + 1), (F d + if pending f q d = 0 then G d else 0) =
      ∑ d ∈ Finset.range (evaluated f q i), (F d + if pending f q d = 0 then G d else 0) +
        (∑ j ∈ Finset.range (pending f q i + 1), F (evaluated f q i + j) + G (evaluated f q i)) := by
  have e : i + 1 = evaluated f q i + (pending f q i + 1) := by have := evaluated_add f q i; omega
  conv_lhs => rw [e, Finset.sum_range_add, Finset.sum_add_distrib (s := Finset.range (pending f q i + 1))]
  congr 2
  rw [Finset.sum_eq_single_of_mem 0 (by simp)]
  · rw [if_pos (pending_block hf i (Nat.zero_le _)), Nat.add_zero]
  · intro j hj h0
    rw [Finset.mem_range] at hj
    rw [if_neg (by rw [pending_block hf i (by omega)]; exact h0)]

/-! ## Live states -/

theorem liveCount_eq {g : Graph} (hg : g.WF) (d : Nat) : liveCount g d = (g.levelSet [g.init] d).length := by
  have hs : {q | ∃ w : List Bool, w.length = d ∧ g.runWord g.initialState w = .ok q} = ((g.levelSet [g.init] d).toFinset : Set Nat) := by
    ext q
    simp only [Set.mem_setOf_eq, List.coe_toFinset]
    constructor
    · rintro ⟨w, rfl, hw⟩
      rw [show g.initialState = g.init from rfl, (hg.run_ok hg.init_lt w).1] at hw
      rw [← Except.ok.inj hw]
      exact hg.run_mem_levelSet (by intro q hq; simp at hq; subst hq; exact hg.init_lt) (by simp) w
    · exact level_reached hg d q
  unfold liveCount
  rw [hs, Set.ncard_coe_finset, List.toFinset_card_of_nodup (Graph.sorted_levelSet (by simp) d).nodup]

theorem live_pos {g : Graph} (hg : g.WF) (d : Nat) : (g.levelSet [g.init] d).length ≠ 0 :=
  fun h => levelSet_ne_nil hg d (List.eq_nil_of_length_eq_zero h)

/-! ## BLOCK -/

/-- a turn of a runner that writes no log messages -/
theorem logTurn_quiet {ρ : Type} {rand : Nat → Nat} {evalOne : ρ → Gsw l N → Res ρ} {result : ρ → Res (TLWE N × ρ)}
    {info : ρ → List Row} {freq : Nat} (hf : 0 < freq) {r r' r'' : ρ} {i : Nat} {b : Bool} {c : TLWE N} {verdict : Nat → Bool} {inf : Nat → List Row}
    (hi : info r = inf i) (he : evalOne r (S.encrypt (rand i) b) = .ok r')
    (hr : freq ∣ i + 1 → result r' = .ok (c, r'') ∧ decryptBit c S.sk = verdict (i + 1)) :
    logTurn S rand (fun r c => quiet (evalOne r c)) (fun r => quiet (result r)) info freq (r, i) b =
      ⟨bitRows freq inf verdict i, .ok (if freq ∣ i + 1 then r'' else r', i + 1)⟩ :=
  logTurn_ok (rowsE := []) (rowsR := []) hf (by simpa using hi) (by rw [he]; rfl)
    (fun hd => ⟨by rw [(hr hd).1]; rfl, (hr hd).2⟩)

theorem blockSamples_pos {g : Graph} (hg : g.WF) (d k : Nat) : ∀ p ∈ blockSamples g (g.levelSet [g.init] d) k, p.2 ≠ 0 := by
  intro p hp
  unfold blockSamples at hp
  rw [List.mem_append] at hp
  rcases hp with hp | hp
  · obtain ⟨i, _, rfl⟩ := List.mem_map.1 hp
    dsimp only
    rw [Graph.levelSet_add]
    exact live_pos hg _
  · split at hp
    · cases hp
    · rcases List.mem_cons.1 hp with rfl | hp
      · simp
      · unfold lutSamples at hp
        obtain ⟨i, _, rfl⟩ := List.mem_map.1 hp
        simp

theorem blockSamples_cmux {g : Graph} (hg : g.WF) (d k : Nat) : recorded .cmux (blockSamples g (g.levelSet [g.init] d) k) =
    ∑ j ∈ Finset.range k, liveCount g (d + j) + (2 ^ selectBits (liveCount g d) - 1) := by
  have := blockSamples_count g (g.levelSet [g.init] d) k
  unfold Backstream.cmuxCount at this
  unfold recorded
  rw [this]
  congr 1
  · rw [Finset.sum_range, ← List.sum_ofFn, List.ofFn_eq_map]
    rw [show List.range k = (List.finRange k).map Fin.val by simp, List.map_map]
    congr 1
    refine List.map_congr_left fun j _ => ?_
    simp only [Function.comp]
    rw [liveCount_eq hg, Graph.levelSet_add]
  · unfold selectBits
    rw [liveCount_eq hg]
    split <;> rfl

theorem blockSamples_cb {g : Graph} (hg : g.WF) (d k : Nat) : recorded .circuitBootstrapping (blockSamples g (g.levelSet [g.init] d) k) =
    selectBits (liveCount g d) := by
  unfold blockSamples
  rw [recorded_append, liveCount_eq hg]
  have h1 : recorded .circuitBootstrapping ((List.range k).reverse.map fun i => (Target.cmux, (g.levelSet (g.levelSet [g.init] d) i).length)) = 0 := by
    unfold recorded
    rw [List.filter_eq_nil_iff.2 (by simp)]
    rfl
  rw [h1, Nat.zero_add]
  unfold selectBits
  split
  · rfl
  · have h2 : ∀ m, recorded .circuitBootstrapping (lutSamples m) = 0 := by
      intro m
      unfold recorded lutSamples
      rw [List.filter_eq_nil_iff.2 (by simp)]
      rfl
    rw [show ∀ (p : Target × Nat) ps, p :: ps = [p] ++ ps from fun _ _ => rfl, recorded_append, h2]
    simp [recorded]

theorem blockSamples_boot (g : Graph) (L : List Nat) (k : Nat) : recorded .bootstrapping (blockSamples g L k) = 0 := by
  unfold recorded
  rw [List.filter_eq_nil_iff.2]
  · rfl
  · intro p hp
    unfold blockSamples at hp
    rw [List.mem_append] at hp
    rcases hp with hp | hp
    · obtain ⟨i, _, rfl⟩ := List.mem_map.1 hp
      simp
    · split at hp
      · cases hp
      · rcases List.mem_cons.1 hp with rfl | hp
        · simp
        · unfold lutSamples at hp
          obtain ⟨i, _, rfl⟩ := List.mem_map.1 hp
          simp

/-- what the timer of the BLOCK runner holds after `e` evaluated inputs -/
structure BlockTimer (g : Graph) (f q e : Nat) (timer : List (Target × Nat)) : Prop where
  pos : ∀ p ∈ timer, p.2 ≠ 0
  cmux : recorded .cmux timer = ∑ d ∈ Finset.range e, (liveCount g d + if pending f q d = 0 then 2 ^ selectBits (liveCount g d) - 1 else 0)
  cb : recorded .circuitBootstrapping timer = ∑ d ∈ Finset.range e, (0 + if pending f q d = 0 then selectBits (liveCount g d) else 0)
  boot : recorded .bootstrapping timer = 0

theorem BlockTimer.block {g : Graph} (hg : g.WF) {f q i : Nat} (hf : 0 < f) {timer : List (Target × Nat)}
    (h : BlockTimer g f q (evaluated f q i) timer) :
    BlockTimer g f q (i + 1) (timer ++ blockSamples g (g.levelSet [g.init] (evaluated f q i)) (pending f q i + 1)) := by
  refine ⟨?_, ?_, ?_, ?_⟩
  · intro p hp
    rcases List.mem_append.1 hp with hp | hp
    · exact h.pos p hp
    · exact blockSamples_pos hg _ _ p hp
  · rw [recorded_append, blockSamples_cmux hg, h.cmux, block_sum hf]
  · rw [recorded_append, blockSamples_cb hg, h.cb, block_sum hf]
    simp
  · rw [recorded_append, blockSamples_boot, h.boot]

theorem blockTimer_totals {g : Graph} {f q len : Nat} {timer : List (Target × Nat)} (h : BlockTimer g f q (evaluated f q len) timer) :
    (totalsOf timer).Perm (blockTotals g f q len) := by
  have e1 : ∑ d ∈ Finset.range (evaluated f q len), (liveCount g d + (2 ^ (if pending f q d = 0 then selectBits (liveCount g d) else 0) - 1)) =
      recorded .cmux timer := by
    rw [h.cmux]
    refine Finset.sum_congr rfl fun d _ => ?_
    split <;> rfl
  have e2 : ∑ d ∈ Finset.range (evaluated f q len), (if pending f q d = 0 then selectBits (liveCount g d) else 0) =
      recorded .circuitBootstrapping timer := by
    rw [h.cb]
    simp
  unfold blockTotals
  dsimp only
  rw [e1, e2]
  unfold totalsOf
  simp only [List.flatMap_cons, List.flatMap_nil, List.append_nil, h.boot, labelOf]
  show (_ ++ ([] ++ _)).Perm _
  rw [List.nil_append]
  exact List.perm_append_comm

/-- the invariant of the loop -/
structure BlockLoop (S : Scheme N n l) (Enc : Gsw l N → Bool → Prop) (g : Graph) (f q E : Nat) (w : List Bool) (i : Nat) (r : Block N l) : Prop where
  str : BStr g q r (evaluated f q i) (pending f q i)
  sem : ∃ u v, BInv S Enc g q E r u v ∧ u ++ v = w.take i ∧ v.length + 1 ≤ max 1 q
  timer : BlockTimer g f q (evaluated f q i) r.timer

theorem block_turn (hS : S.Sound δ Enc) {g : Graph} (hg : g.WF) {f q B : Nat} (hf : 0 < f) (hq : 0 < q) (hint : q ≤ 2 ^ 31)
    (hB : ∀ d, (g.levelSet [g.init] d).length < 2 ^ B) (hBN : B < N) (hB31 : B < 31) (hbud : (max 1 q + B) * δ.cmux + δ.cb < 2 ^ 29) (rand : Nat → Nat) {w : List Bool} {v : Nat → Bool}
    (hv : ∀ i ≤ w.length, g.accepts (w.take i) = .ok (v i)) {i : Nat} (hi : i < w.length) {r : Block N l}
    (h : BlockLoop S Enc g f q ((max 1 q + B) * δ.cmux) w i r) :
    ∃ r', logTurn S rand (fun r c => quiet (Block.evalOne S r c)) (fun r => quiet (Block.result S r))
        (fun r => [⟨"num_live_states", .num r.live.length⟩]) f (r, i) w[i] = ⟨bitRows f (blockInfo g f q) v i, .ok (r', i + 1)⟩ ∧
      BlockLoop S Enc g f q ((max 1 q + B) * δ.cmux) w (i + 1) r' := by
  obtain ⟨u0, v0, hI, huv, hv0⟩ := h.sem
  have hadd := evaluated_add f q i
  have hps := pending_succ hf hq i
  have hplt := pending_lt (f := f) hq i
  have htake : w.take (i + 1) = w.take i ++ [w[i]] := by rw [List.take_succ_eq_append_getElem hi]
  obtain ⟨r1, u1, v1, e1, e2, e3, e4⟩ := binv_one hS hg hB hBN hB31 hbud hI hv0 hint (Nat.le_refl _) (hS.encrypt (rand i) w[i])
  obtain ⟨r1', e1', s1⟩ := bstr_one S hg hB hBN hB31 h.str (S.encrypt (rand i) w[i])
  rw [e1] at e1'
  cases e1'
  rw [countDown_eq (by omega)] at s1
  rw [huv, ← htake] at e3
  have hinfo : [(⟨"num_live_states", .num r.live.length⟩ : Row)] = blockInfo g f q i := by
    unfold blockInfo
    rw [h.str.live, liveCount_eq hg]
  -- the runner after `eval_one`
  have hstr1 : ∃ k, BStr g q r1 (i + 1 - k) k ∧ k ≤ i + 1 ∧ (k = 0 ∧ pending f q i + 1 = q ∧
        r1.timer = r.timer ++ blockSamples g (g.levelSet [g.init] (evaluated f q i)) (pending f q i + 1) ∨
      k = pending f q i + 1 ∧ pending f q i + 1 ≠ q ∧ r1.timer = r.timer) := by
    rcases s1 with ⟨a, b, c⟩ | ⟨a, b, c⟩
    · refine ⟨pending f q i + 1, ?_, by omega, .inr ⟨rfl, by omega, c⟩⟩
      rwa [show i + 1 - (pending f q i + 1) = evaluated f q i by omega]
    · refine ⟨0, ?_, by omega, .inl ⟨rfl, by omega, c⟩⟩
      rwa [show i + 1 - 0 = evaluated f q i + (pending f q i + 1) by omega]
  obtain ⟨k, hk1, hk2, hk3⟩ := hstr1
  by_cases hd : f ∣ i + 1
  · have hne : u1 ++ v1 ≠ [] := by
      rw [e3]
      intro h0
      have h1 := congrArg List.length h0
      rw [List.length_take, List.length_nil] at h1
      omega
    obtain ⟨c, r2, t1, t2, t3⟩ := binv_result hS hg hB hBN hB31 hbud e2 e4 hint (Nat.le_refl _) hne
    obtain ⟨c', r2', t1', t2', t3'⟩ := bstr_result S hg hB hBN hB31 hk1 (by omega)
    rw [t1] at t1'
    cases t1'
    rw [countDown_eq (by omega)] at t3'
    rw [e3] at t2 t3
    refine ⟨r2, ?_, ?_⟩
    · have := logTurn_quiet (S := S) (rand := rand) (evalOne := fun r c => Block.evalOne S r c) (result := fun r => Block.result S r)
        (info := fun r : Block N l => [⟨"num_live_states", .num r.live.length⟩]) (b := w[i]) (c := c) (r'' := r2) (verdict := v) hf hinfo e1 (by
        intro _
        refine ⟨t1, ?_⟩
        rw [C24_decrypts _ _ S.sk (t3.mono (by omega))]
        have := hv (i + 1) hi
        rw [hg.accepts_eq] at this
        exact Except.ok.inj this)
      rw [this, if_pos hd]
    · rw [if_pos hd] at hps
      have hev : evaluated f q (i + 1) = i + 1 := by unfold evaluated; omega
      refine ⟨?_, ⟨_, _, t2, by simp, by simp⟩, ?_⟩
      · rw [hev, hps]
        rwa [show i + 1 - k + k = i + 1 by omega] at t2'
      · rw [hev]
        have : r2.timer = r.timer ++ blockSamples g (g.levelSet [g.init] (evaluated f q i)) (pending f q i + 1) := by
          rcases hk3 with ⟨a, _, b⟩ | ⟨a, _, b⟩
          · rcases t3' with ⟨_, t⟩ | ⟨t, _⟩
            · rw [t, b]
            · exact absurd a t
          · rcases t3' with ⟨t, _⟩ | ⟨_, t⟩
            · omega
            · rw [t, b, a, show i + 1 - (pending f q i + 1) = evaluated f q i by omega]
        rw [this]
        exact h.timer.block hg hf
  · refine ⟨r1, ?_, ?_⟩
    · have := logTurn_quiet (S := S) (rand := rand) (evalOne := fun r c => Block.evalOne S r c) (result := fun r => Block.result S r)
        (info := fun r : Block N l => [⟨"num_live_states", .num r.live.length⟩]) (b := w[i]) (c := ⟨fun _ => 0, 0⟩) (r'' := r1) (verdict := v)
        hf hinfo e1 (fun h => absurd h hd)
      rw [this, if_neg hd]
    · rw [if_neg hd] at hps
      rcases hk3 with ⟨a, a', b⟩ | ⟨a, a', b⟩
      · rw [if_pos a'] at hps
        have hev : evaluated f q (i + 1) = i + 1 := by unfold evaluated; omega
        refine ⟨?_, ⟨_, _, e2, e3, e4⟩, ?_⟩
        · rw [hev, hps]
          rw [a] at hk1
          exact hk1
        · rw [hev, b]
          exact h.timer.block hg hf
      · rw [if_neg a'] at hps
        have hev : evaluated f q (i + 1) = evaluated f q i := by unfold evaluated; omega
        refine ⟨?_, ⟨_, _, e2, e3, e4⟩, ?_⟩
        · rw [hev, hps]
          rw [a, show i + 1 - (pending f q i + 1) = evaluated f q i by omega] at hk1
          exact hk1
        · rw [hev, b]
          exact h.timer

/-! ## FLUT -/

/-- how a block is cut -/
theorem flut_split (S : Scheme N n l) {r r' : Flut N l} (hq : r.queued ≠ []) (h : r.evalQueued S = .ok r') :
    r'.second = min (r.queued.length / 2) (r.maxSecond - Nat.clog 2 r'.live.length) ∧ r'.first = r.queued.length - r'.second := by
  have hq0 : r.queued.length ≠ 0 := fun h => hq (List.eq_nil_of_length_eq_zero h)
  unfold Flut.evalQueued at h
  dsimp only at h
  rw [if_neg hq0] at h
  obtain ⟨memo, _, h⟩ := Res.bind_eq_ok.1 h
  obtain ⟨next, _, h⟩ := Res.bind_eq_ok.1 h
  obtain ⟨st2idx, _, h⟩ := Res.bind_eq_ok.1 h
  obtain ⟨⟨first, second⟩, hd, h⟩ := Res.bind_eq_ok.1 h
  dsimp only at h
  obtain ⟨_, _, h⟩ := Res.bind_eq_ok.1 h
  obtain ⟨_, _, h⟩ := Res.bind_eq_ok.1 h
  obtain ⟨_, _, h⟩ := Res.bind_eq_ok.1 h
  obtain ⟨_, _, h⟩ := Res.bind_eq_ok.1 h
  obtain ⟨_, _, h⟩ := Res.bind_eq_ok.1 h
  obtain ⟨_, _, h⟩ := Res.bind_eq_ok.1 h
  obtain ⟨_, _, h⟩ := Res.bind_eq_ok.1 h
  obtain ⟨_, _, h⟩ := Res.bind_eq_ok.1 h
  by_cases hb : r.bootFreq = 0
  · rw [if_pos hb] at h; cases h
  · rw [if_neg hb] at h
    obtain ⟨_, _, h⟩ := Res.bind_eq_ok.1 h
    obtain ⟨_, _, h⟩ := Res.bind_eq_ok.1 h
    have h := Except.ok.inj h
    subst h
    dsimp only
    unfold lutDepths at hd
    obtain ⟨cap, _, hd⟩ := Res.bind_eq_ok.1 hd
    by_cases hc : next.length ≥ cap
    · rw [if_pos hc] at hd; cases hd
    · rw [if_neg hc] at hd
      dsimp only at hd
      obtain ⟨_, _, hd⟩ := Res.bind_eq_ok.1 hd
      have hd := Except.ok.inj hd
      rw [Prod.mk.injEq] at hd
      exact ⟨hd.2.symm, by rw [← hd.1, ← hd.2]⟩

theorem debugRow_eq (verbose : Bool) {s : String} {t : List Char} (h : s.toList = t) : debugRow verbose t = note verbose s := by subst h; rfl

/-- the log messages of an evaluation -/
theorem flut_log (verbose : Bool) {g : Graph} (hg : g.WF) {max qs boot L : Nat} (hqs : qs < 31) (hmax : max < 31) {r : Flut N l} {u v : List Bool}
    (h : FInv S δ Enc g max qs boot L r u v) (hv0 : v ≠ []) (hv : v.length ≤ qs) :
    Flut.evalQueuedLog verbose r = note verbose s!"live states: {liveCount g u.length}" ++
      note verbose s!"next live states: {liveCount g (u ++ v).length}" ++
      (if liveCount g (u ++ v).length < 2 ^ max then
        note verbose s!"LUT {v.length - min (v.length / 2) (max - Nat.clog 2 (liveCount g (u ++ v).length))} + {min (v.length / 2)
          (max - Nat.clog 2 (liveCount g (u ++ v).length))} = {v.length}" else []) := by
  have hvl : v.length ≠ 0 := fun hh => hv0 (List.eq_nil_of_length_eq_zero hh)
  have hi : ∀ q ∈ [g.init], q < g.size := by intro q hq; simp at hq; subst hq; exact hg.init_lt
  have hs : SSorted r.live := by rw [h.live]; exact Graph.sorted_levelSet (by simp) _
  have hlt : ∀ q ∈ r.live, q < r.graph.size := by rw [h.live, h.graph]; exact Graph.levelSet_lt hi _
  obtain ⟨row, hrow, hrow'⟩ := h.memo v.length hv
  have hnext : r.graph.levelSet r.live v.length = g.levelSet [g.init] (u ++ v).length := by
    rw [h.graph, h.live, Graph.levelSet_add, List.length_append]
  obtain ⟨st2idx, hi1, _⟩ := flutIdx_ok (g := r.graph) (Graph.sorted_levelSet hs v.length).nodup (Graph.levelSet_lt hlt v.length)
  unfold Flut.evalQueuedLog
  dsimp only
  rw [h.queued.length_eq, if_neg hvl, vat_eq_ok.2 hrow, Res.bind_ok, flutNext_ok (by rw [h.graph]; exact hg) (by omega)
    (by rw [h.graph]; exact hrow') hlt hvl, Res.bind_ok, hi1, Res.bind_ok, Res.pure_eq]
  dsimp only
  rw [hnext, h.maxSecond, h.live, ← liveCount_eq hg, ← liveCount_eq hg]
  rw [debugRow_eq verbose (s := s!"live states: {liveCount g u.length}") (by simp [showNat, Nat.repr, toString]),
    debugRow_eq verbose (s := s!"next live states: {liveCount g (u ++ v).length}") (by simp [showNat, Nat.repr, toString])]
  congr 1
  by_cases hlt : liveCount g (u ++ v).length < 2 ^ max
  · rw [if_pos hlt, lutDepths_eq (by omega) hlt]
    dsimp only
    exact debugRow_eq verbose (by simp [showNat, Nat.repr, toString])
  · rw [if_neg hlt, lutDepths_die (by omega) (by omega)]

theorem flut_log_empty (verbose : Bool) {r : Flut N l} (h : r.queued = []) : Flut.evalQueuedLog verbose r = [] := by
  unfold Flut.evalQueuedLog
  rw [h]; rfl

/-- the depths after a block -/
def SplitOf (live max block : Nat) (r : Flut N l) : Prop :=
  r.second = min (block / 2) (max - Nat.clog 2 live) ∧ r.first = block - min (block / 2) (max - Nat.clog 2 live)

/-- the invariant of the loop -/
structure FlutLoop (S : Scheme N n l) (δ : Noise) (Enc : Gsw l N → Bool → Prop) (g : Graph) (f max qs boot L : Nat) (w : List Bool) (i : Nat)
    (r : Flut N l) : Prop where
  sem : ∃ u v, FInv S δ Enc g max qs boot L r u v ∧ u ++ v = w.take i ∧ v.length = pending f qs i
  split : SplitOf (liveCount g (evaluated f qs i)) max (lastBlock f qs i) r

theorem flut_turn (hS : S.Sound δ Enc) {g : Graph} (hg : g.WF) {f max qs boot L : Nat} (hf : 0 < f) (hqs0 : 0 < qs)
    (hL : ∀ d, (g.levelSet [g.init] d).length ≤ L)
    (hqs : qs < 31) (hmax : max < 31) (hmaxN : 2 ^ max ≤ N) (hboot : 0 < boot)
    (hbud : L * 2 ^ (qs / 2) * flutErr δ L qs (boot - 1) + qs * δ.cmux + δ.ks + δ.ms < 2 ^ 30) (rand : Nat → Nat) {w : List Bool} {v : Nat → Bool}
    (hv : ∀ i ≤ w.length, g.accepts (w.take i) = .ok (v i)) {i : Nat} (hi : i < w.length)
    (hok : pending f qs (i + 1) = 0 → liveCount g (i + 1) < 2 ^ max) (verbose : Bool) {r : Flut N l}
    (h : FlutLoop S δ Enc g f max qs boot L w i r) :
    ∃ r', logTurn S rand (fun r c => Flut.evalOneOut verbose S r c) (fun r => Flut.resultOut verbose S r)
        (fun r => [⟨"num_live_states", .num r.live.length⟩, ⟨"first_lut_depth", .num r.first⟩, ⟨"second_lut_depth", .num r.second⟩])
        f (r, i) w[i] = ⟨bitRows f (fun i => flutInfo g f qs max i ++ flutNotes verbose g f qs max i) v i, .ok (r', i + 1)⟩ ∧
      FlutLoop S δ Enc g f max qs boot L w (i + 1) r' := by
  obtain ⟨u0, v0, hI, huv, hv0⟩ := h.sem
  have hadd := evaluated_add f qs i
  have hps := pending_succ hf hqs0 i
  have hplt := pending_lt (f := f) hqs0 i
  have htake : w.take (i + 1) = w.take i ++ [w[i]] := by rw [List.take_succ_eq_append_getElem hi]
  have hlen : (w.take i).length = i := by rw [List.length_take]; omega
  have hu0 : u0.length = evaluated f qs i := by
    have := congrArg List.length huv
    rw [List.length_append, hlen] at this
    omega
  have hinfo : [(⟨"num_live_states", .num r.live.length⟩ : Row), ⟨"first_lut_depth", .num r.first⟩, ⟨"second_lut_depth", .num r.second⟩] =
      flutInfo g f qs max i := by
    unfold flutInfo
    dsimp only
    rw [hI.live, hu0, ← liveCount_eq hg, h.split.1, h.split.2]
  have hc := hS.encrypt (rand i) w[i]
  have hI1 : FInv S δ Enc g max qs boot L { r with queued := r.queued ++ [S.encrypt (rand i) w[i]] } u0 (v0 ++ [w[i]]) :=
    ⟨hI.graph, hI.maxSecond, hI.queueSize, hI.bootFreq, hI.memo, hI.wlen, List.rel_append hI.queued (.cons hc .nil), hI.live, hI.weight⟩
  have hql : (r.queued ++ [S.encrypt (rand i) w[i]]).length = pending f qs i + 1 := by
    rw [List.length_append, hI.queued.length_eq, hv0]; rfl
  have huv1 : u0 ++ (v0 ++ [w[i]]) = w.take (i + 1) := by rw [← List.append_assoc, huv, htake]
  -- a full evaluation
  have hlen1 : (w.take (i + 1)).length = i + 1 := by rw [List.length_take]; omega
  have hfull : pending f qs (i + 1) = 0 → ∃ r1, Flut.evalQueued S { r with queued := r.queued ++ [S.encrypt (rand i) w[i]] } = .ok r1 ∧
      FInv S δ Enc g max qs boot L r1 (w.take (i + 1)) [] ∧ SplitOf (liveCount g (i + 1)) max (pending f qs i + 1) r1 := by
    intro hp0
    obtain ⟨_, e2⟩ := finv_eval hS hg hL hqs hmax hmaxN hboot hbud hI1 (by rw [List.length_append, hv0]; exact hplt)
    obtain ⟨r1, k1, k2⟩ := e2 (.inr (by rw [huv1, hlen1, ← liveCount_eq hg]; exact hok hp0))
    rw [huv1] at k2
    refine ⟨r1, k1, k2, ?_⟩
    obtain ⟨k3, k4⟩ := flut_split S (by simp) k1
    dsimp only at k3 k4
    rw [hql, hI.maxSecond, k2.live, ← liveCount_eq hg, List.length_take, Nat.min_eq_left (show i + 1 ≤ w.length by omega)] at k3
    rw [hql, k3] at k4
    exact ⟨k3, k4⟩
  have hone : r.evalOne S (S.encrypt (rand i) w[i]) = if pending f qs i + 1 < qs then
      pure { r with queued := r.queued ++ [S.encrypt (rand i) w[i]] }
      else Flut.evalQueued S { r with queued := r.queued ++ [S.encrypt (rand i) w[i]] } := by
    unfold Flut.evalOne
    dsimp only
    rw [hql, hI.queueSize]
  have hout : Flut.evalOneOut verbose S r (S.encrypt (rand i) w[i]) = ⟨if pending f qs i + 1 < qs then [] else
      Flut.evalQueuedLog verbose { r with queued := r.queued ++ [S.encrypt (rand i) w[i]] }, r.evalOne S (S.encrypt (rand i) w[i])⟩ := by
    unfold Flut.evalOneOut
    rw [hI.queued.length_eq, hv0, hI.queueSize]
  have hnotes : pending f qs (i + 1) = 0 → Flut.evalQueuedLog verbose { r with queued := r.queued ++ [S.encrypt (rand i) w[i]] } =
      flutNotes verbose g f qs max i := by
    intro hp0
    have := flut_log verbose hg hqs hmax hI1 (by simp) (by rw [List.length_append, hv0]; exact hplt)
    rw [huv1, hlen1, if_pos (hok hp0), hu0, List.length_append, hv0, List.length_singleton] at this
    rw [this]
    unfold flutNotes liveNotes
    dsimp only
    rw [if_pos hp0]
  have hend : ∀ r1, FInv S δ Enc g max qs boot L r1 (w.take (i + 1)) [] → pending f qs (i + 1) = 0 → SplitOf (liveCount g (i + 1)) max (pending f qs i + 1) r1 →
      FlutLoop S δ Enc g f max qs boot L w (i + 1) r1 := by
    intro r1 f2 hp0 hs
    have hev : evaluated f qs (i + 1) = i + 1 := by unfold evaluated; omega
    refine ⟨⟨_, _, f2, by simp, by rw [hp0]; rfl⟩, ?_⟩
    have hlb : lastBlock f qs (i + 1) = pending f qs i + 1 := by
      unfold lastBlock
      rw [hev, if_neg (by omega)]; rfl
    rw [hev, hlb]
    exact hs
  have hE : L * flutErr δ L qs (boot - 1) < 2 ^ 30 := by
    have h1 : 1 ≤ 2 ^ (qs / 2) := Nat.pos_of_ne_zero (by simp)
    have h2 := Nat.mul_le_mul_right (flutErr δ L qs (boot - 1)) (Nat.mul_le_mul_left L h1)
    rw [Nat.mul_one] at h2
    omega
  have hdec : ∀ (c : TLWE N), Near (L * flutErr δ L qs (boot - 1)) (c.phase S.sk.lvl1) (half (g.fin ((w.take (i + 1)).foldl g.nx g.init))) →
      decryptBit c S.sk = v (i + 1) := by
    intro c hn
    rw [C24_decrypts _ _ S.sk (hn.mono (by omega))]
    have := hv (i + 1) hi
    rw [hg.accepts_eq] at this
    exact Except.ok.inj this
  have hturn := fun (rowsE rowsR : List Row) (hn : rowsE ++ (if f ∣ i + 1 then rowsR else []) = flutNotes verbose g f qs max i)
    (r' r'' : Flut N l) (c : TLWE N) => logTurn_ok (S := S) (rand := rand) (evalOne := fun r c => Flut.evalOneOut verbose S r c)
    (result := fun r => Flut.resultOut verbose S r) (rowsE := rowsE) (rowsR := rowsR)
    (info := fun r : Flut N l => [⟨"num_live_states", .num r.live.length⟩, ⟨"first_lut_depth", .num r.first⟩, ⟨"second_lut_depth", .num r.second⟩])
    (b := w[i]) (c := c) (r' := r') (r'' := r'') (verdict := v)
    (inf := fun i => flutInfo g f qs max i ++ flutNotes verbose g f qs max i) hf (r := r) (i := i) (by rw [hinfo, List.append_assoc, hn])
  by_cases hlt : pending f qs i + 1 < qs
  · rw [if_pos hlt] at hone
    rw [if_pos hlt, hone] at hout
    by_cases hd : f ∣ i + 1
    · rw [if_pos hd] at hps
      obtain ⟨r1, f1, f2, f3⟩ := hfull hps
      have hlt1 := hok hps
      rw [liveCount_eq hg] at hlt1
      rcases finv_result hS hg hL hqs hmax hmaxN hboot hbud hI1 (by rw [List.length_append, hv0]; exact hlt) with ⟨_, t⟩ | ⟨c, r2, t1, t2, t3⟩
      · rw [huv1, hlen1] at t
        omega
      · rw [huv1] at t3
        have hr2 : r2 = r1 := by
          unfold Flut.result at t1
          rw [f1, Res.bind_ok] at t1
          obtain ⟨_, _, t1⟩ := Res.bind_eq_ok.1 t1
          obtain ⟨_, _, t1⟩ := Res.bind_eq_ok.1 t1
          have := Except.ok.inj t1
          rw [Prod.mk.injEq] at this
          exact this.2.symm
        subst hr2
        refine ⟨r2, ?_, hend _ f2 hps f3⟩
        rw [hturn [] (flutNotes verbose g f qs max i) (by rw [if_pos hd]; rfl) _ r2 c hout (fun _ => ⟨by unfold Flut.resultOut; rw [t1, hnotes hps], hdec c t3⟩), if_pos hd]
    · rw [if_neg hd, if_neg (by omega)] at hps
      refine ⟨{ r with queued := r.queued ++ [S.encrypt (rand i) w[i]] }, ?_, ?_⟩
      · rw [hturn [] [] (by rw [if_neg hd]; unfold flutNotes; dsimp only; rw [if_neg (by omega)]; rfl) _ r ⟨fun _ => 0, 0⟩ hout
          (fun h => absurd h hd), if_neg hd]
      · have hev : evaluated f qs (i + 1) = evaluated f qs i := by unfold evaluated; omega
        refine ⟨⟨_, _, hI1, huv1, by rw [List.length_append, hv0, hps]; rfl⟩, ?_⟩
        have hlb : lastBlock f qs (i + 1) = lastBlock f qs i := by unfold lastBlock; rw [hev]
        rw [hev, hlb]
        exact h.split
  · have hp0 : pending f qs (i + 1) = 0 := by rw [hps, if_pos (show pending f qs i + 1 = qs by omega)]; split <;> rfl
    obtain ⟨r1, f1, f2, f3⟩ := hfull hp0
    have hlt1 := hok hp0
    rw [liveCount_eq hg] at hlt1
    rw [if_neg hlt, f1] at hone
    rw [if_neg hlt, hone] at hout
    by_cases hd : f ∣ i + 1
    · rcases finv_result hS hg hL hqs hmax hmaxN hboot hbud f2 (by simpa using hqs0) with ⟨_, t⟩ | ⟨c, r2, t1, t2, t3⟩
      · rw [List.append_nil, hlen1] at t
        omega
      · rw [List.append_nil] at t3
        have hr2 : r2 = r1 := by
          unfold Flut.result at t1
          rw [flut_eval_empty S (List.eq_nil_of_length_eq_zero f2.queued.length_eq), Res.bind_ok] at t1
          obtain ⟨_, _, t1⟩ := Res.bind_eq_ok.1 t1
          obtain ⟨_, _, t1⟩ := Res.bind_eq_ok.1 t1
          have := Except.ok.inj t1
          rw [Prod.mk.injEq] at this
          exact this.2.symm
        subst hr2
        refine ⟨r2, ?_, hend _ f2 hp0 f3⟩
        rw [hturn _ [] (by rw [if_pos hd, List.append_nil]; exact hnotes hp0) _ r2 c hout (fun _ => ⟨by
          unfold Flut.resultOut; rw [t1, flut_log_empty verbose (List.eq_nil_of_length_eq_zero f2.queued.length_eq)], hdec c t3⟩), if_pos hd]
    · refine ⟨r1, ?_, hend _ f2 hp0 f3⟩
      rw [hturn _ [] (by rw [if_neg hd, List.append_nil]; exact hnotes hp0) _ r ⟨fun _ => 0, 0⟩ hout (fun h => absurd h hd), if_neg hd]

/-- a turn that evaluates a queue after which too many states are live -/
theorem flut_turn_dies (hS : S.Sound δ Enc) {g : Graph} (hg : g.WF) {f max qs boot L : Nat} (hf : 0 < f) (hqs0 : 0 < qs)
    (hL : ∀ d, (g.levelSet [g.init] d).length ≤ L) (hqs : qs < 31) (hmax : max < 31) (hmaxN : 2 ^ max ≤ N) (hboot : 0 < boot)
    (hbud : L * 2 ^ (qs / 2) * flutErr δ L qs (boot - 1) + qs * δ.cmux + δ.ks + δ.ms < 2 ^ 30) (rand : Nat → Nat) {w : List Bool}
    {i : Nat} (hi : i < w.length) (hp0 : pending f qs (i + 1) = 0) (hbad : 2 ^ max ≤ liveCount g (i + 1)) (verbose : Bool)
    {r : Flut N l} (h : FlutLoop S δ Enc g f max qs boot L w i r) :
    logTurn S rand (fun r c => Flut.evalOneOut verbose S r c) (fun r => Flut.resultOut verbose S r)
        (fun r => [⟨"num_live_states", .num r.live.length⟩, ⟨"first_lut_depth", .num r.first⟩, ⟨"second_lut_depth", .num r.second⟩])
        f (r, i) w[i] = ⟨⟨"enc", .time⟩ :: flutInfo g f qs max i ++ liveNotes verbose g f qs i, .error .die⟩ := by
  obtain ⟨u0, v0, hI, huv, hv0⟩ := h.sem
  have hadd := evaluated_add f qs i
  have hps := pending_succ hf hqs0 i
  have hplt := pending_lt (f := f) hqs0 i
  have htake : w.take (i + 1) = w.take i ++ [w[i]] := by rw [List.take_succ_eq_append_getElem hi]
  have hlen : (w.take i).length = i := by rw [List.length_take]; omega
  have hlen1 : (w.take (i + 1)).length = i + 1 := by rw [List.length_take]; omega
  have hu0 : u0.length = evaluated f qs i := by
    have := congrArg List.length huv
    rw [List.length_append, hlen] at this
    omega
  have hinfo : [(⟨"num_live_states", .num r.live.length⟩ : Row), ⟨"first_lut_depth", .num r.first⟩, ⟨"second_lut_depth", .num r.second⟩] =
      flutInfo g f qs max i := by
    unfold flutInfo
    dsimp only
    rw [hI.live, hu0, ← liveCount_eq hg, h.split.1, h.split.2]
  have hc := hS.encrypt (rand i) w[i]
  have hI1 : FInv S δ Enc g max qs boot L { r with queued := r.queued ++ [S.encrypt (rand i) w[i]] } u0 (v0 ++ [w[i]]) :=
    ⟨hI.graph, hI.maxSecond, hI.queueSize, hI.bootFreq, hI.memo, hI.wlen, List.rel_append hI.queued (.cons hc .nil), hI.live, hI.weight⟩
  have hql : (r.queued ++ [S.encrypt (rand i) w[i]]).length = pending f qs i + 1 := by
    rw [List.length_append, hI.queued.length_eq, hv0]; rfl
  have huv1 : u0 ++ (v0 ++ [w[i]]) = w.take (i + 1) := by rw [← List.append_assoc, huv, htake]
  have hnotes : Flut.evalQueuedLog verbose { r with queued := r.queued ++ [S.encrypt (rand i) w[i]] } = liveNotes verbose g f qs i := by
    have := flut_log verbose hg hqs hmax hI1 (by simp) (by rw [List.length_append, hv0]; exact hplt)
    rw [huv1, hlen1, if_neg (by omega), hu0, List.append_nil] at this
    exact this
  rw [liveCount_eq hg] at hbad
  have hdie : Flut.evalQueued S { r with queued := r.queued ++ [S.encrypt (rand i) w[i]] } = .error .die :=
    (finv_eval hS hg hL hqs hmax hmaxN hboot hbud hI1 (by rw [List.length_append, hv0]; exact hplt)).1 (by simp) (by rw [huv1, hlen1]; exact hbad)
  have hone : r.evalOne S (S.encrypt (rand i) w[i]) = if pending f qs i + 1 < qs then
      pure { r with queued := r.queued ++ [S.encrypt (rand i) w[i]] }
      else Flut.evalQueued S { r with queued := r.queued ++ [S.encrypt (rand i) w[i]] } := by
    unfold Flut.evalOne
    dsimp only
    rw [hql, hI.queueSize]
  have hout : Flut.evalOneOut verbose S r (S.encrypt (rand i) w[i]) = ⟨if pending f qs i + 1 < qs then [] else
      Flut.evalQueuedLog verbose { r with queued := r.queued ++ [S.encrypt (rand i) w[i]] }, r.evalOne S (S.encrypt (rand i) w[i])⟩ := by
    unfold Flut.evalOneOut
    rw [hI.queued.length_eq, hv0, hI.queueSize]
  unfold logTurn
  dsimp only
  rw [elapsed_ok "enc" (out_pure _), out_ok, hinfo]
  by_cases hlt : pending f qs i + 1 < qs
  · have hd : f ∣ i + 1 := by
      by_contra hd
      rw [if_neg hd, if_neg (by omega)] at hps
      omega
    rw [if_pos hlt] at hone
    rw [if_pos hlt, hone] at hout
    have hres : Flut.resultOut verbose S { r with queued := r.queued ++ [S.encrypt (rand i) w[i]] } = ⟨liveNotes verbose g f qs i, .error .die⟩ := by
      unfold Flut.resultOut Flut.result
      rw [hdie, Res.bind_err, hnotes]
    rw [hout, Res.pure_eq, out_ok, out_ok, if_neg (by omega), if_neg (by simpa using Nat.mod_eq_zero_of_dvd hd), hres, out_error]
    rfl
  · rw [if_neg hlt, hdie] at hone
    rw [if_neg hlt, hone, hnotes] at hout
    rw [hout, out_ok, out_error]
    rfl

/-! ## REVERSE -/

/-- the invariant of the loop; `m` is the graph that is walked -/
structure ReverseLoop (S : Scheme N n l) (Enc : Gsw l N → Bool → Prop) (m : Graph) (boot : Nat) (w : List Bool) (i : Nat) (r : Backstream N) :
    Prop where
  graph : r.graph = m
  inputSize : r.inputSize = none
  interval : r.bootInterval = boot
  num : r.numProcessed = i
  wlen : r.weight.length = m.size
  sem : ∃ r0 cs, Backstream.make m boot none true false = .ok r0 ∧ List.Forall₂ Enc cs (w.take i) ∧ r0.evalAll S cs = .ok r
  pos : ∀ p ∈ r.timer, p.2 ≠ 0
  cmux : recorded .cmux r.timer = m.size * i
  cb : recorded .circuitBootstrapping r.timer = 0
  bs : recorded .bootstrapping r.timer = m.size * (i / boot)

theorem evalOut_ok (verbose : Bool) {r r' : Backstream N} {c : Gsw l N} {i boot : Nat} (h : r.eval S c = .ok r') (hn : r'.numProcessed = i + 1)
    (hb : r'.bootInterval = boot) : Backstream.evalOut verbose S r c = ⟨bootNote verbose boot i, .ok r'⟩ := by
  unfold Backstream.evalOut
  rw [h]
  dsimp only
  rw [hn, hb]
  unfold bootNote
  congr 1
  by_cases hd : boot ∣ i + 1
  · rw [if_pos hd, if_pos (Nat.mod_eq_zero_of_dvd hd)]; rfl
  · rw [if_neg hd, if_neg (fun hh => hd (Nat.dvd_of_mod_eq_zero hh))]

theorem reverse_turn (hS : S.Sound δ Enc) (hN : 0 < N) {m : Graph} (hm : m.WF) {f boot : Nat} (hf : 0 < f) (hb : 0 < boot)
    {w : List Bool} (hbud : δ.br + min boot w.length * δ.cmux + δ.ks + δ.ms < 2 ^ 30) (rand : Nat → Nat) {v : Nat → Bool}
    (hv : ∀ i ≤ w.length, m.accepts (w.take i).reverse = .ok (v i)) {i : Nat} (hi : i < w.length) {r : Backstream N}
    (h : ReverseLoop S Enc m boot w i r) (verbose : Bool) :
    ∃ r', logTurn S rand (fun r c => Backstream.evalOut verbose S r c) (fun r => do let c ← quiet r.result; pure (c, r)) (fun _ => []) f (r, i) w[i] =
        ⟨bitRows f (bootNote verbose boot) v i, .ok (r', i + 1)⟩ ∧ ReverseLoop S Enc m boot w (i + 1) r' := by
  have htake : w.take (i + 1) = w.take i ++ [w[i]] := by rw [List.take_succ_eq_append_getElem hi]
  obtain ⟨r', k1, k2, k3, k4, k5, k6, k7⟩ := Backstream.eval_struct (S := S) hN (r := r) (by rw [h.graph]; exact hm) (sts := List.range m.size)
    (S.encrypt (rand i) w[i]) (by rw [h.inputSize, h.graph]; rfl) List.nodup_range (by rw [h.graph]; exact fun q hq => List.mem_range.1 hq)
    (by rw [h.graph, h.wlen]) (by rw [h.interval]; exact hb)
  rw [List.length_range, h.num, h.interval] at k7
  obtain ⟨r0, cs, e1, e2, e3⟩ := h.sem
  have e4 : List.Forall₂ Enc (cs ++ [S.encrypt (rand i) w[i]]) (w.take (i + 1)) := by
    rw [htake]
    exact List.rel_append e2 (.cons (hS.encrypt _ _) .nil)
  have e5 : r0.evalAll S (cs ++ [S.encrypt (rand i) w[i]]) = .ok r' := by
    rw [Backstream.evalAll_append, e3, Res.bind_ok]
    show [S.encrypt (rand i) w[i]].foldlM (fun r c => Backstream.eval S r c) r = _
    rw [List.foldlM_cons, k1]
    rfl
  obtain ⟨r1, r2, c, t1, t2, t3, t4⟩ := reverse_run hS hN m hm boot hb (w.take (i + 1)) w.length (by rw [List.length_take]; omega) _ e4 hbud
  rw [e1] at t1
  cases t1
  rw [e5] at t2
  cases t2
  refine ⟨r', ?_, k2.trans h.graph, k3.trans h.inputSize, k4.trans h.interval, by rw [k5, h.num], by rw [k6, h.graph],
    ⟨r0, _, e1, e4, e5⟩, ?_, ?_, ?_, ?_⟩
  · have := logTurn_ok (S := S) (rand := rand) (evalOne := fun r c => Backstream.evalOut verbose S r c)
      (result := fun r => do let c ← quiet r.result; pure (c, r)) (info := fun _ : Backstream N => []) (inf := bootNote verbose boot)
      (b := w[i]) (c := c) (r' := r') (r'' := r') (verdict := v) hf (r := r) (i := i) (rowsR := []) (rowsE := bootNote verbose boot i) (by simp)
      (evalOut_ok verbose k1 (k5.trans (by rw [h.num])) (k4.trans h.interval)) (by
        intro _
        refine ⟨by rw [t3]; rfl, ?_⟩
        rw [hv (i + 1) hi] at t4
        exact (Except.ok.inj t4).symm)
    rw [this, ite_self]
  · intro p hp
    rw [k7] at hp
    have := hm.init_lt
    rcases List.mem_append.1 hp with hp | hp
    · exact h.pos p hp
    · rcases List.mem_cons.1 hp with rfl | hp
      · dsimp only; omega
      · split at hp
        · rw [List.mem_singleton] at hp
          subst hp
          dsimp only; omega
        · cases hp
  · rw [k7, recorded_append, h.cmux, Nat.mul_succ]
    congr 1
    unfold recorded
    split <;> simp
  · rw [k7, recorded_append, h.cb]
    unfold recorded
    split <;> simp
  · rw [k7, recorded_append, h.bs, Nat.succ_div, Nat.mul_add]
    congr 1
    unfold recorded
    by_cases hd : boot ∣ i + 1
    · rw [if_pos hd, if_pos (Nat.mod_eq_zero_of_dvd hd)]
      simp
    · rw [if_neg hd, if_neg (fun hh => hd (Nat.dvd_of_mod_eq_zero hh))]
      simp

theorem reverse_totals {m : Graph} {boot : Nat} {w : List Bool} {r : Backstream N} (h : ReverseLoop S Enc m boot w w.length r) :
    (totalsOf r.timer).Perm (reversedTotals m.size w.length boot) := by
  unfold totalsOf reversedTotals
  simp only [List.flatMap_cons, List.flatMap_nil, List.append_nil, h.cb, h.bs, h.cmux, labelOf]
  show ([] ++ _).Perm _
  rw [List.nil_append]
  exact List.perm_append_comm

/-! ## The loop -/

/-- what the three online methods print -/
theorem logOnline_ok {ρ : Type} {rand : Nat → Nat} {fs : Files} {spec input : String} {freq ap : Nat} {make : Graph → Res ρ}
    {graph : ρ → Graph} {evalOne : ρ → Gsw l N → Out ρ} {result : ρ → Out (TLWE N × ρ)} {info : ρ → List Row} {g : Graph} {notes : List Row}
    {rs : List (List Byte)} (hg : readSpecOut fs spec = ⟨notes, .ok g⟩) (hi : fs input = some rs.flatten)
    (hap : 0 < ap) (hrs : ∀ r ∈ rs, r.length = recordBytes ap) {r0 : ρ} (hmake : make g = .ok r0) (inf : Nat → List Row) (v : Nat → Bool)
    (Inv : Nat → ρ → Prop) (h0 : Inv 0 r0) (hstep : ∀ i (hi : i < (rs.flatMap (recordBits ap)).length) r, Inv i r →
      ∃ r', logTurn S rand evalOne result info freq (r, i) (rs.flatMap (recordBits ap))[i] = ⟨bitRows freq inf v i, .ok (r', i + 1)⟩ ∧ Inv (i + 1) r') :
    ∃ r, logOnline S rand fs spec input freq ap make graph evalOne result info =
        ⟨notes ++ [⟨"init", .time⟩, ⟨"config-spec_num_states", .num (graph r0).size⟩, ⟨"config-input_size", .num (rs.flatMap (recordBits ap)).length⟩] ++
          (List.range (rs.flatMap (recordBits ap)).length).flatMap (bitRows freq inf v), .ok r⟩ ∧
      Inv (rs.flatMap (recordBits ap)).length r := by
  obtain ⟨s', k1, k2⟩ := fold_log (logTurn S rand evalOne result info freq) (rs.flatMap (recordBits ap)) (fun i s => s.2 = i ∧ Inv i s.1)
    (bitRows freq inf v) (by
      rintro i hi ⟨r, j⟩ ⟨rfl, h⟩
      obtain ⟨r', e1, e2⟩ := hstep j hi r h
      exact ⟨_, e1, rfl, e2⟩) (r0, 0) ⟨rfl, h0⟩
  refine ⟨s'.1, ?_, k2.2⟩
  unfold logOnline
  rw [elapsed_ok (rows := notes) (a := r0) "init" (by rw [hg, out_ok, hmake]; simp [quiet]), out_ok]
  rw [print_bind]
  dsimp only
  rw [hi, inputSize_records hap hrs, quiet_bind, print_bind]
  dsimp only
  rw [eachOut_records hap hrs, k1, out_ok]
  simp [out_pure]

/-! ## PLAIN and OFFLINE -/

theorem logKeys_bind {β : Type} (f : Unit → Out β) :
    (logKeys >>= f) = ⟨⟨"skey", .time⟩ :: ⟨"bkey", .time⟩ :: (f ()).rows, (f ()).res⟩ := rfl


theorem plain_turn {g : Graph} (hg : g.WF) {f : Nat} (hf : 0 < f) {w : List Bool} {st : Nat → Nat} {v : Nat → Bool}
    (hst : ∀ i ≤ w.length, g.runWord g.initialState (w.take i) = .ok (st i)) (hv : ∀ i ≤ w.length, g.accepts (w.take i) = .ok (v i))
    {i : Nat} (hi : i < w.length) : logPlainTurn g f (st i, i) w[i] = ⟨plainRows f st v i, .ok (st (i + 1), i + 1)⟩ := by
  have hst' : ∀ i ≤ w.length, (w.take i).foldl g.nx g.init = st i := by
    intro i hi
    have := hst i hi
    rw [show g.initialState = g.init from rfl, (hg.run_ok hg.init_lt _).1] at this
    exact Except.ok.inj this
  have hlt : ∀ i ≤ w.length, st i < g.size := fun i hi => by rw [← hst' i hi]; exact hg.run_lt hg.init_lt _
  have hnx : g.nx (st i) w[i] = st (i + 1) := by
    rw [← hst' i (by omega), ← hst' (i + 1) hi, List.take_succ_eq_append_getElem hi, List.foldl_append]
    rfl
  have hfin : g.fin (st (i + 1)) = v (i + 1) := by
    have := hv (i + 1) hi
    rw [hg.accepts_eq] at this
    rw [← hst' (i + 1) hi]
    exact Except.ok.inj this
  unfold logPlainTurn
  rw [Graph.WF.nextState_ok (hlt i (by omega)), quiet_bind, hnx, print_bind]
  dsimp only
  rw [if_neg (by omega)]
  unfold plainRows
  by_cases hd : f ∣ i + 1
  · rw [if_pos hd, if_pos (Nat.mod_eq_zero_of_dvd hd), hg.isFinalState_ok (hlt (i + 1) hi), quiet_bind, hfin]
    cases v (i + 1) <;> rfl
  · rw [if_neg hd, if_neg (fun hh => hd (Nat.dvd_of_mod_eq_zero hh))]
    rfl

theorem backstream_num {r r' : Backstream N} {c : Gsw l N} (h : r.eval S c = .ok r') :
    r'.numProcessed = r.numProcessed + 1 ∧ r'.bootInterval = r.bootInterval := by
  unfold Backstream.eval at h
  dsimp only at h
  obtain ⟨sts, _, h⟩ := Res.bind_eq_ok.1 h
  obtain ⟨_, _, h⟩ := Res.bind_eq_ok.1 h
  obtain ⟨_, _, h⟩ := Res.bind_eq_ok.1 h
  split at h
  · cases h
  · split at h
    · unfold Backstream.bootstrapWeight at h
      obtain ⟨_, _, h⟩ := Res.bind_eq_ok.1 h
      obtain ⟨_, _, h⟩ := Res.bind_eq_ok.1 h
      cases h
      exact ⟨rfl, rfl⟩
    · cases h
      exact ⟨rfl, rfl⟩

/-- a turn of `offline` -/
theorem offline_turn (verbose : Bool) (rand : Nat → Nat) {boot i : Nat} {p : Bool × Nat} {s s' : Backstream N × TLWE N × Nat}
    (h : benchOfflineRun S s (S.encrypt (rand p.2) p.1) = .ok s') (hn : s.1.numProcessed = i) (hb : s.1.bootInterval = boot) :
    logOfflineTurn verbose S rand s p = ⟨[⟨"enc", .time⟩] ++ bootNote verbose boot i ++ [⟨"run", .time⟩], .ok s'⟩ ∧
      s'.1.numProcessed = i + 1 ∧ s'.1.bootInterval = boot := by
  unfold benchOfflineRun at h
  obtain ⟨r, h1, h⟩ := Res.bind_eq_ok.1 h
  obtain ⟨n1, n2⟩ := backstream_num h1
  rw [hn] at n1
  rw [hb] at n2
  have ho := evalOut_ok verbose h1 n1 n2
  unfold logOfflineTurn
  dsimp only at h ⊢
  rw [elapsed_ok (rows := []) "enc" (x := pure (S.encrypt (rand p.2) p.1)) rfl, out_ok]
  by_cases hrem : s.2.2 - 1 = 0
  · rw [if_pos hrem] at h
    obtain ⟨res, h2, h⟩ := Res.bind_eq_ok.1 h
    cases h
    rw [elapsed_ok (rows := bootNote verbose boot i) (a := (r, res, s.2.2 - 1)) "run"
      (by rw [ho, out_ok, if_pos hrem, h2, quiet_bind]; simp [out_pure])]
    exact ⟨by simp, n1, n2⟩
  · rw [if_neg hrem] at h
    cases h
    rw [elapsed_ok (rows := bootNote verbose boot i) (a := (r, s.2.1, s.2.2 - 1)) "run"
      (by rw [ho, out_ok, if_neg hrem]; simp [out_pure])]
    exact ⟨by simp, n1, n2⟩

theorem offline_log (verbose : Bool) (rand : Nat → Nat) {boot : Nat} : ∀ (ps : List (Bool × Nat)) (i : Nat) (s s' : Backstream N × TLWE N × Nat),
    ps.foldlM (fun s (p : Bool × Nat) => benchOfflineRun S s (S.encrypt (rand p.2) p.1)) s = .ok s' → s.1.numProcessed = i → s.1.bootInterval = boot →
    ps.foldlM (logOfflineTurn verbose S rand) s = ⟨(List.range' i ps.length).flatMap fun i =>
      [(⟨"enc", .time⟩ : Row)] ++ bootNote verbose boot i ++ [⟨"run", .time⟩], .ok s'⟩
  | [], i, s, s', h, _, _ => by cases h; rfl
  | p :: ps, i, s, s', h, hn, hb => by
    rw [List.foldlM_cons] at h
    obtain ⟨s1, h1, h2⟩ := Res.bind_eq_ok.1 h
    obtain ⟨k1, k2, k3⟩ := offline_turn verbose rand h1 hn hb
    rw [List.foldlM_cons, k1, out_ok, offline_log verbose rand ps (i + 1) s1 s' h2 k2 k3, List.length_cons, List.range'_succ, List.flatMap_cons]

theorem offline_turn_error (verbose : Bool) (rand : Nat → Nat) {e : Err} {p : Bool × Nat} {s : Backstream N × TLWE N × Nat}
    (h : benchOfflineRun S s (S.encrypt (rand p.2) p.1) = .error e) : (logOfflineTurn verbose S rand s p).res = .error e := by
  unfold benchOfflineRun at h
  unfold logOfflineTurn
  rw [elapsed_ok (rows := []) "enc" (x := pure (S.encrypt (rand p.2) p.1)) rfl, out_ok]
  cases h1 : s.1.eval S (S.encrypt (rand p.2) p.1) with
  | error e' =>
    rw [h1] at h
    cases h
    unfold Backstream.evalOut printElapsed
    rw [h1]
    rfl
  | ok r =>
    rw [h1, Res.bind_ok] at h
    obtain ⟨n1, n2⟩ := backstream_num h1
    unfold printElapsed
    rw [evalOut_ok verbose h1 n1 n2, out_ok]
    dsimp only at h ⊢
    by_cases hrem : s.2.2 - 1 = 0
    · rw [if_pos hrem] at h ⊢
      cases h2 : r.result with
      | error e' => rw [h2] at h; cases h; rfl
      | ok c => rw [h2] at h; cases h
    · rw [if_neg hrem] at h
      cases h

theorem offline_log_error (verbose : Bool) (rand : Nat → Nat) {e : Err} : ∀ (ps : List (Bool × Nat)) (s : Backstream N × TLWE N × Nat),
    ps.foldlM (fun s (p : Bool × Nat) => benchOfflineRun S s (S.encrypt (rand p.2) p.1)) s = .error e →
    (ps.foldlM (logOfflineTurn verbose S rand) s).res = .error e
  | [], s, h => by cases h
  | p :: ps, s, h => by
    rw [List.foldlM_cons] at h ⊢
    cases h1 : benchOfflineRun S s (S.encrypt (rand p.2) p.1) with
    | error e' =>
      rw [h1] at h
      cases h
      have := offline_turn_error verbose rand h1
      rcases hx : logOfflineTurn verbose S rand s p with ⟨rows, res⟩
      rw [hx] at this
      dsimp only at this
      subst this
      rfl
    | ok s1 =>
      rw [h1, Res.bind_ok] at h
      rw [(offline_turn verbose rand h1 rfl rfl).1, out_ok]
      exact offline_log_error verbose rand ps s1 h

/-! ## Failures -/

theorem dieRows_key {e : Err} {errs : List Row} (h : DieRows e errs) : ∀ row ∈ errs, row.key = "error" := by
  cases h <;> simp

theorem skipNotes_key (skip : List (List Char)) : ∀ row ∈ skipNotes skip, row.key = "info" := by
  intro row h
  obtain ⟨l, _, rfl⟩ := List.mem_map.1 h
  rfl

theorem alwaysFails_of {L : Lib N n l} {fs : Files} {toks : List String} {c : Call} {e : Err}
    (hm : benchMain (fun f => (fs f).isSome) toks = .ok (some c)) (hex : ∃ x, BenchExec L fs (benchVerbose toks) c x)
    (h : ∀ x, BenchExec L fs (benchVerbose toks) c x → x.res = .error e ∧ ∀ row ∈ x.rows, row.key ∉ ["enc", "run", "dec", "state", "result"]) :
    AlwaysFails L fs toks e := by
  constructor
  · obtain ⟨x, hx⟩ := hex
    obtain ⟨h1, h2⟩ := h x hx
    obtain ⟨errs, he⟩ := dieRows_exists e
    obtain ⟨text, ht⟩ := shows_exists (⟨"time", .date⟩ :: x.rows ++ errs)
    obtain ⟨rows, res⟩ := x
    dsimp only at h1
    subst h1
    exact ⟨text, _, .fails hm hx he ht⟩
  · intro text r hr
    cases hr with
    | done h1 h2 =>
      rw [hm] at h1
      cases h1
      have := (h _ h2).1
      cases this
    | fails h1 h2 he h3 =>
      rw [hm] at h1
      cases h1
      obtain ⟨k1, k2⟩ := h _ h2
      refine ⟨by cases k1; rfl, _, h3, ?_⟩
      intro row hrow
      rcases List.mem_append.1 hrow with hrow | hrow
      · rcases List.mem_cons.1 hrow with rfl | hrow
        · decide
        · exact k2 row hrow
      · rw [dieRows_key he row hrow]
        decide
    | usage h1 => rw [hm] at h1; cases h1
    | bad h1 => rw [hm] at h1; cases h1

theorem logOnline_make_fails {ρ : Type} {rand : Nat → Nat} {fs : Files} {spec input : String} {freq ap : Nat} {make : Graph → Res ρ}
    {graph : ρ → Graph} {evalOne : ρ → Gsw l N → Out ρ} {result : ρ → Out (TLWE N × ρ)} {info : ρ → List Row} {g : Graph} {notes : List Row} {e : Err}
    (hg : readSpecOut fs spec = ⟨notes, .ok g⟩) (hmake : make g = .error e) :
    logOnline S rand fs spec input freq ap make graph evalOne result info = ⟨notes, .error e⟩ := by
  unfold logOnline printElapsed
  rw [hg, out_ok, hmake]
  simp [quiet, out_error]

theorem logOnline_input_fails {ρ : Type} {rand : Nat → Nat} {fs : Files} {spec input : String} {freq ap : Nat} {make : Graph → Res ρ}
    {graph : ρ → Graph} {evalOne : ρ → Gsw l N → Out ρ} {result : ρ → Out (TLWE N × ρ)} {info : ρ → List Row} {g : Graph} {notes : List Row} {e : Err}
    (hg : readSpecOut fs spec = ⟨notes, .ok g⟩) {r0 : ρ} (hmake : make g = .ok r0)
    (hi : benchInputSize (fs input) ap = .error e) :
    logOnline S rand fs spec input freq ap make graph evalOne result info =
      ⟨notes ++ [⟨"init", .time⟩, ⟨"config-spec_num_states", .num (graph r0).size⟩], .error e⟩ := by
  unfold logOnline
  rw [elapsed_ok (rows := notes) (a := r0) "init" (by rw [hg, out_ok, hmake]; simp [quiet]), out_ok, print_bind]
  dsimp only
  rw [hi, quiet_error]
  simp

theorem backstream_sanitize (g : Graph) (boot : Nat) (size : Option Nat) : Backstream.make (N := N) g boot size true true = .error .die := rfl

theorem reverseMake_sanitize {g : Graph} (hg : g.WF) (boot : Nat) (rev : Bool) : reverseMake (N := N) g boot rev true true = .error .die := by
  cases rev
  · obtain ⟨g1, a1, a2, a3⟩ := C03_reversed_language g hg
    obtain ⟨g2, b1, b2, b3⟩ := C04_minimized_language g1 a2
    unfold reverseMake
    rw [if_neg (by decide), a1, Res.bind_ok, b1, Res.bind_ok]
    rfl
  · rfl

theorem reverseMake_ok {g : Graph} (hg : g.WF) (hN : 0 < N) (boot : Nat) (rev : Bool) : ∃ r : Backstream N, reverseMake g boot rev true false = .ok r := by
  cases rev
  · obtain ⟨g1, a1, a2, a3⟩ := C03_reversed_language g hg
    obtain ⟨g2, b1, b2, b3⟩ := C04_minimized_language g1 a2
    obtain ⟨r, h, _⟩ := Backstream.make_ok (n := 0) (l := 0) b2 hN boot none
    refine ⟨r, ?_⟩
    unfold reverseMake
    rw [if_neg (by decide), a1, Res.bind_ok, b1, Res.bind_ok, h]
  · obtain ⟨r, h, _⟩ := Backstream.make_ok (n := 0) (l := 0) hg hN boot none
    exact ⟨r, h⟩

end Homfa.Cli
