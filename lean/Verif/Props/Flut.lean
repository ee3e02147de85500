import Verif.Props.Block
import Verif.Proof.FlutInv

/-!
# C32, C33 (FLUT runner)
-/

namespace Homfa

variable {N n l : Nat} {S : Scheme N n l} {δ : Noise} {Enc : Gsw l N → Bool → Prop}

/-- At most `L` states are reachable in exactly `d` steps, for every `d`. -/
def LiveMax (g : Graph) (L : Nat) : Prop :=
  ∀ (d : Nat) (X : List Nat), X.Nodup → (∀ q ∈ X, ∃ w : List Bool, w.length = d ∧ g.runWord g.initialState w = .ok q) → X.length ≤ L

/-- Every state of the level is reached by a word of that length. -/
theorem level_reached {g : Graph} (hg : g.WF) (d : Nat) :
    ∀ q ∈ g.levelSet [g.init] d, ∃ w : List Bool, w.length = d ∧ g.runWord g.initialState w = .ok q := by
  intro q hq
  have hi : ∀ q ∈ [g.init], q < g.size := by intro q hq; simp at hq; subst hq; exact hg.init_lt
  obtain ⟨p, hp, w, hw, hr⟩ := (hg.mem_levelSet hi).1 hq
  simp at hp
  subst hp
  exact ⟨w, hw, by rw [show g.initialState = g.init from rfl, (hg.run_ok hg.init_lt w).1, hr]⟩

theorem LiveMax.level {g : Graph} (hg : g.WF) {L : Nat} (h : LiveMax g L) (d : Nat) : (g.levelSet [g.init] d).length ≤ L :=
  h d _ (Graph.sorted_levelSet (by simp) d).nodup (level_reached hg d)

theorem liveMax_of_size {g : Graph} (hg : g.WF) : LiveMax g g.size := by
  intro d L hnd hL
  have := List.Nodup.length_le_of_subset (l₁ := L) (l₂ := List.range g.size) hnd (fun q hq => by
    obtain ⟨w, _, hr⟩ := hL q hq
    rw [show g.initialState = g.init from rfl, (hg.run_ok hg.init_lt w).1] at hr
    rw [List.mem_range, ← Except.ok.inj hr]
    exact hg.run_lt hg.init_lt w)
  rwa [List.length_range] at this

/-- **C32 (noise and exit).** Over any history of calls, either every call succeeds and every result is within
`L * flutErr (boot-1)` of the encoding of whether the graph accepts the inputs so far, or the program exits with an error message, and then
at least 2^max_second_lut_depth states are reachable by words of the length of some prefix of the inputs. -/
theorem C32_flut_noise (hS : S.Sound δ Enc) (g : Graph) (hg : g.WF) (max qs boot L : Nat) (hL : LiveMax g L) (hqs0 : 0 < qs) (hqs : qs < 31)
    (hmax : max < 31) (hmaxN : 2 ^ max ≤ N) (hboot : 0 < boot)
    (hbud : L * 2 ^ (qs / 2) * flutErr δ L qs (boot - 1) + qs * δ.cmux + δ.ks + δ.ms < 2 ^ 30)
    (cs : List (Call (Gsw l N))) (ps : List (Call Bool)) (hcs : List.Forall₂ (Call.Rel Enc) cs ps) :
    ∃ r, Flut.make g max qs boot false = .ok r ∧
      ((runCalls (fun r c => Flut.evalOne S r c) (fun r => Flut.result S r) r cs = .error .die ∧
        ∃ (d : Nat) (X : List Nat), d ≤ (fedWord ps).length ∧ X.Nodup ∧ 2 ^ max ≤ X.length ∧
          ∀ q ∈ X, ∃ w : List Bool, w.length = d ∧ g.runWord g.initialState w = .ok q) ∨
      ∃ r' outs, runCalls (fun r c => Flut.evalOne S r c) (fun r => Flut.result S r) r cs = .ok (outs, r') ∧
        List.Forall₂ (fun (c : TLWE N) u => ∃ b, g.accepts u = .ok b ∧
          Near (L * flutErr δ L qs (boot - 1)) (c.phase S.sk.lvl1) (half b)) outs (resultWords [] ps)) := by
  have hlev := hL.level hg
  have key : ∀ (cs : List (Call (Gsw l N))) (ps : List (Call Bool)), List.Forall₂ (Call.Rel Enc) cs ps →
      ∀ (r : Flut N l) (u v : List Bool), FInv S δ Enc g max qs boot L r u v → v.length < qs →
      (runCalls (fun r c => Flut.evalOne S r c) (fun r => Flut.result S r) r cs = .error .die ∧
        ∃ d, d ≤ (u ++ v).length + (fedWord ps).length ∧ 2 ^ max ≤ (g.levelSet [g.init] d).length) ∨
      ∃ r' outs, runCalls (fun r c => Flut.evalOne S r c) (fun r => Flut.result S r) r cs = .ok (outs, r') ∧
        List.Forall₂ (fun (c : TLWE N) u => ∃ b, g.accepts u = .ok b ∧
          Near (L * flutErr δ L qs (boot - 1)) (c.phase S.sk.lvl1) (half b)) outs (resultWords (u ++ v) ps) := by
    intro cs ps h
    induction h with
    | nil => intro r u v _ _; exact .inr ⟨r, [], rfl, .nil⟩
    | @cons c p cs ps hc _ ih =>
      intro r u v hI hv
      cases hc with
      | @feed x y hxy =>
        rcases finv_one hS hg hlev hqs hmax hmaxN hboot hbud hI hv hxy with ⟨h1, h2⟩ | ⟨r', u', v', h1, h2, h3, h4⟩
        · refine .inl ⟨by rw [runCalls, h1]; rfl, _, ?_, h2⟩
          simp [fedWord]; omega
        · rw [runCalls, h1, resultWords, ← h3]
          rcases ih r' u' v' h2 h4 with ⟨k1, d, k2, k3⟩ | k
          · refine .inl ⟨k1, d, ?_, k3⟩
            rw [h3] at k2
            simp [fedWord] at k2 ⊢; omega
          · exact .inr k
      | result =>
        rcases finv_result hS hg hlev hqs hmax hmaxN hboot hbud hI hv with ⟨h1, h2⟩ | ⟨c, r', h1, h2, h3⟩
        · exact .inl ⟨by rw [runCalls, h1]; rfl, _, by omega, h2⟩
        · rw [runCalls, h1]
          rcases ih r' (u ++ v) [] h2 (by simpa using hqs0) with ⟨k1, d, k2, k3⟩ | ⟨r'', outs, k1, k2⟩
          · refine .inl ⟨?_, d, by simpa [fedWord] using k2, k3⟩
            show (runCalls _ _ r' cs >>= _) = _
            rw [k1]; rfl
          · refine .inr ⟨r'', c :: outs, ?_, ?_⟩
            · show (runCalls _ _ r' cs >>= _) = _
              rw [k1]; rfl
            · rw [resultWords]
              refine .cons ⟨_, hg.accepts_eq _, h3⟩ ?_
              rw [List.append_nil] at k2
              exact k2
  obtain ⟨r, h1, h2⟩ := finv_make (N := N) (l := l) (S := S) (δ := δ) (Enc := Enc) hg max qs boot L hqs
  refine ⟨r, h1, ?_⟩
  rcases key cs ps hcs r [] [] h2 (by simpa using hqs0) with ⟨k1, d, k2, k3⟩ | k
  · exact .inl ⟨k1, d, g.levelSet [g.init] d, by simpa [fedWord] using k2, (Graph.sorted_levelSet (by simp [SSorted]) d).nodup, k3, level_reached hg d⟩
  · exact .inr k

/-- **C32.** Over any history of calls, either the program exits with an error message or every result decrypts to whether the graph
accepts the inputs fed so far. -/
theorem C32_flut_decides (hS : S.Sound δ Enc) (g : Graph) (hg : g.WF) (max qs boot L : Nat) (hL : LiveMax g L) (hqs0 : 0 < qs)
    (hqs : qs < 31) (hmax : max < 31) (hmaxN : 2 ^ max ≤ N) (hboot : 0 < boot)
    (hbud : L * 2 ^ (qs / 2) * flutErr δ L qs (boot - 1) + qs * δ.cmux + δ.ks + δ.ms < 2 ^ 30)
    (cs : List (Call (Gsw l N))) (ps : List (Call Bool)) (hcs : List.Forall₂ (Call.Rel Enc) cs ps) :
    ∃ r, Flut.make g max qs boot false = .ok r ∧
      (runCalls (fun r c => Flut.evalOne S r c) (fun r => Flut.result S r) r cs = .error .die ∨
      ∃ r' outs, runCalls (fun r c => Flut.evalOne S r c) (fun r => Flut.result S r) r cs = .ok (outs, r') ∧
        outs.map (fun c => Except.ok (decryptBit c S.sk)) = (resultWords [] ps).map g.accepts) := by
  obtain ⟨r, h1, h2⟩ := C32_flut_noise hS g hg max qs boot L hL hqs0 hqs hmax hmaxN hboot hbud cs ps hcs
  refine ⟨r, h1, ?_⟩
  rcases h2 with ⟨h2, _⟩ | ⟨r', outs, h2, h3⟩
  · exact .inl h2
  · refine .inr ⟨r', outs, h2, ?_⟩
    have hle : L * flutErr δ L qs (boot - 1) < 2 ^ 30 := by
      have h1 : 1 ≤ 2 ^ (qs / 2) := Nat.pos_of_ne_zero (by simp)
      have h2 := Nat.mul_le_mul_right (flutErr δ L qs (boot - 1)) (Nat.mul_le_mul_left L h1)
      rw [Nat.mul_one] at h2
      omega
    generalize resultWords [] ps = ws at h3
    clear h2
    induction h3 with
    | nil => rfl
    | cons h _ ih =>
      obtain ⟨b, e1, e2⟩ := h
      rw [List.map_cons, List.map_cons, ih, e1, C24_decrypts b _ S.sk (e2.mono (by omega))]

/-- **C32 (no exit).** If fewer than 2^max_second_lut_depth states are ever live, no call fails. -/
theorem C32_flut_no_exit (hS : S.Sound δ Enc) (g : Graph) (hg : g.WF) (max qs boot L : Nat) (hL : LiveMax g L) (hLmax : L < 2 ^ max)
    (hqs0 : 0 < qs) (hqs : qs < 31) (hmax : max < 31) (hmaxN : 2 ^ max ≤ N) (hboot : 0 < boot)
    (hbud : L * 2 ^ (qs / 2) * flutErr δ L qs (boot - 1) + qs * δ.cmux + δ.ks + δ.ms < 2 ^ 30)
    (cs : List (Call (Gsw l N))) (ps : List (Call Bool)) (hcs : List.Forall₂ (Call.Rel Enc) cs ps) :
    ∃ r r' outs, Flut.make g max qs boot false = .ok r ∧
      runCalls (fun r c => Flut.evalOne S r c) (fun r => Flut.result S r) r cs = .ok (outs, r') ∧
      outs.map (fun c => Except.ok (decryptBit c S.sk)) = (resultWords [] ps).map g.accepts := by
  obtain ⟨r, h1, h2⟩ := C32_flut_noise hS g hg max qs boot L hL hqs0 hqs hmax hmaxN hboot hbud cs ps hcs
  obtain ⟨r', k1, k2⟩ := C32_flut_decides hS g hg max qs boot L hL hqs0 hqs hmax hmaxN hboot hbud cs ps hcs
  rw [h1] at k1
  cases k1
  rcases k2 with k2 | ⟨r', outs, k2, k3⟩
  · rcases h2 with ⟨_, d, X, _, x1, x2, x3⟩ | ⟨_, _, h2, _⟩
    · have := hL d X x1 x3
      omega
    · rw [h2] at k2; cases k2
  · exact ⟨r, r', outs, h1, k2, k3⟩

/-- **C32 (queue size 0).** With queue size 0 the first input makes the program throw `std::out_of_range`. -/
theorem C32_flut_queue0 (S : Scheme N n l) (g : Graph) (hg : g.WF) (max boot : Nat) (c : Gsw l N) :
    ∃ r, Flut.make g max 0 boot false = .ok r ∧ Flut.evalOne S r c = .error .outOfRange := by
  obtain ⟨r, h1, h2, h3, h4, h5, h6, h7, h8, h9, h10, h11, h12⟩ := flut_make (N := N) (l := l) hg max 0 boot (by omega)
  refine ⟨r, h1, ?_⟩
  unfold Flut.evalOne
  dsimp only
  rw [if_neg (by rw [h4]; omega)]
  unfold Flut.evalQueued
  dsimp only
  rw [if_neg (by simp), h6]
  have : vat r.memo ([] ++ [c]).length = .error .outOfRange := by
    unfold vat
    rw [List.getElem?_eq_none (by rw [h11]; simp)]
  rw [this]
  rfl

/-- **C33.** Whenever an evaluation of a non-empty queue succeeds, from any runner state whatsoever with 2^max_second_lut_depth ≤ N:
the two LUT depths add up to the number of queued inputs; fewer than 2^max_second_lut_depth states are live; and the packed coefficient
`input2 * live + idx` is below N and determines `input2` and `idx`. -/
theorem C33_flut_packing (S : Scheme N n l) (r r' : Flut N l) (hq : r.queued ≠ []) (h : r.evalQueued S = .ok r') (hmaxN : 2 ^ r.maxSecond ≤ N) :
    r'.first + r'.second = r.queued.length ∧ r'.live.length < 2 ^ r.maxSecond ∧
    (∀ x < 2 ^ r'.second, ∀ i < r'.live.length, x * r'.live.length + i < N) ∧
    (∀ x < 2 ^ r'.second, ∀ i < r'.live.length, ∀ y < 2 ^ r'.second, ∀ j < r'.live.length,
      x * r'.live.length + i = y * r'.live.length + j → x = y ∧ i = j) := by
  have hq0 : r.queued.length ≠ 0 := fun h => hq (List.eq_nil_of_length_eq_zero h)
  unfold Flut.evalQueued at h
  dsimp only at h
  rw [if_neg hq0] at h
  obtain ⟨memo, _, h⟩ := Res.bind_eq_ok.1 h
  obtain ⟨next, _, h⟩ := Res.bind_eq_ok.1 h
  obtain ⟨st2idx, _, h⟩ := Res.bind_eq_ok.1 h
  obtain ⟨⟨first, second⟩, hd, h⟩ := Res.bind_eq_ok.1 h
  dsimp only at h
  obtain ⟨_, _, h⟩ := Res.bind_eq_ok.1 h
  obtain ⟨_, _, h⟩ := Res.bind_eq_ok.1 h
  obtain ⟨_, _, h⟩ := Res.bind_eq_ok.1 h
  obtain ⟨_, _, h⟩ := Res.bind_eq_ok.1 h
  obtain ⟨_, _, h⟩ := Res.bind_eq_ok.1 h
  obtain ⟨_, _, h⟩ := Res.bind_eq_ok.1 h
  obtain ⟨_, _, h⟩ := Res.bind_eq_ok.1 h
  obtain ⟨_, _, h⟩ := Res.bind_eq_ok.1 h
  by_cases hb : r.bootFreq = 0
  · rw [if_pos hb] at h; cases h
  · rw [if_neg hb] at h
    obtain ⟨_, _, h⟩ := Res.bind_eq_ok.1 h
    obtain ⟨_, _, h⟩ := Res.bind_eq_ok.1 h
    have h := Except.ok.inj h
    subst h
    dsimp only
    have h31 : r.maxSecond < 32 := by
      by_contra hc
      unfold lutDepths shl1Cap at hd
      rw [if_neg hc] at hd
      cases hd
    have hlt : next.length < 2 ^ r.maxSecond := by
      by_contra hc
      rw [lutDepths_die h31 (by omega)] at hd
      cases hd
    obtain ⟨f, s, d1, d2, d3, d4⟩ := lutDepths_ok (k := r.queued.length) h31 hlt
    rw [hd] at d1
    have d1 := Except.ok.inj d1
    simp only [Prod.mk.injEq] at d1
    obtain ⟨rfl, rfl⟩ := d1
    refine ⟨d2, hlt, fun x hx i hi => ?_, fun x hx i hi y hy j hj he => pack_inj hi hj he⟩
    have := d4 (by omega)
    exact Nat.lt_of_lt_of_le (pack_lt hi hx) (by omega)

/-- The hypotheses are met by a concrete backend, the example graph, max depth 3, queue size 2, bootstrapping every 2 evaluations and a
history with three inputs and three results. -/
example : ∃ (S : Scheme 8 2 1) (δ : Noise) (Enc : Gsw 1 8 → Bool → Prop) (cs : List (Call (Gsw 1 8))),
    S.Sound δ Enc ∧ exGraph.WF ∧ LiveMax exGraph exGraph.size ∧ exGraph.size < 2 ^ 3 ∧ 2 ^ 3 ≤ 8 ∧
    List.Forall₂ (Call.Rel Enc) cs [.result, .feed false, .result, .feed true, .feed true, .result] ∧
    exGraph.size * 2 ^ (2 / 2) * flutErr δ exGraph.size 2 (2 - 1) + 2 * δ.cmux + δ.ks + δ.ms < 2 ^ 30 ∧
    (resultWords [] [Call.result, .feed false, .result, .feed true, .feed true, .result]).map exGraph.accepts =
      [.ok false, .ok false, .ok true] := by
  have hs := toy_sound (N := 8) (n := 2) (l := 1) ⟨![1, 0, 1, 0, 1, 1, 0, 0], ![1, 0]⟩ (by decide) (by decide)
  exact ⟨_, toyNoise, toyEnc, [.result, .feed (Scheme.encrypt _ 0 false), .result, .feed (Scheme.encrypt _ 0 true),
    .feed (Scheme.encrypt _ 0 true), .result], hs, exGraph_wf, liveMax_of_size exGraph_wf, by decide, by decide,
    .cons .result (.cons (.feed (hs.encrypt _ _)) (.cons .result (.cons (.feed (hs.encrypt _ _)) (.cons (.feed (hs.encrypt _ _))
    (.cons .result .nil))))), by decide, by decide⟩

/-- Every task of a loop that succeeded ran successfully. -/
theorem parFor_mem_ok {α : Type} {p : Prog α} : ∀ {ts : List (Prog α)} {m m' : Mem α}, parFor ts m = .ok m' → p ∈ ts →
    ∃ k k', p.run k = .ok k'
  | q :: ts, m, m', h, hp => by
    rw [parFor_cons] at h
    obtain ⟨k, hk, h⟩ := Res.bind_eq_ok.1 h
    rcases List.mem_cons.1 hp with rfl | hp
    · exact ⟨m, k, hk⟩
    · exact parFor_mem_ok h hp

/-- **C33 (depths beyond the ring).** The option `max_second_lut_depth` is not checked against the ring dimension.  Whatever its value, an
evaluation of a non-empty queue succeeds only if every rotation `input2 * live` stays within 2N; otherwise the program leaves its arrays. -/
theorem C33_flut_too_deep (S : Scheme N n l) (r r' : Flut N l) (hq : r.queued ≠ []) (h : r.evalQueued S = .ok r') :
    (2 ^ r'.second - 1) * r'.live.length ≤ 2 * N := by
  have hq0 : r.queued.length ≠ 0 := fun h => hq (List.eq_nil_of_length_eq_zero h)
  unfold Flut.evalQueued at h
  dsimp only at h
  rw [if_neg hq0] at h
  obtain ⟨memo, _, h⟩ := Res.bind_eq_ok.1 h
  obtain ⟨next, _, h⟩ := Res.bind_eq_ok.1 h
  obtain ⟨st2idx, _, h⟩ := Res.bind_eq_ok.1 h
  obtain ⟨⟨first, second⟩, hd, h⟩ := Res.bind_eq_ok.1 h
  dsimp only at h
  obtain ⟨_, _, h⟩ := Res.bind_eq_ok.1 h
  obtain ⟨cnt2, hc2, h⟩ := Res.bind_eq_ok.1 h
  obtain ⟨_, _, h⟩ := Res.bind_eq_ok.1 h
  obtain ⟨_, _, h⟩ := Res.bind_eq_ok.1 h
  obtain ⟨_, _, h⟩ := Res.bind_eq_ok.1 h
  obtain ⟨t, ht, h⟩ := Res.bind_eq_ok.1 h
  obtain ⟨_, _, h⟩ := Res.bind_eq_ok.1 h
  obtain ⟨_, _, h⟩ := Res.bind_eq_ok.1 h
  by_cases hb : r.bootFreq = 0
  · rw [if_pos hb] at h; cases h
  rw [if_neg hb] at h
  obtain ⟨_, _, h⟩ := Res.bind_eq_ok.1 h
  obtain ⟨_, _, h⟩ := Res.bind_eq_ok.1 h
  have h := Except.ok.inj h
  subst h
  dsimp only
  have hcnt : cnt2 = 2 ^ second := by
    exact (lt_of_shl1 hc2).2
  subst hcnt
  rcases Nat.eq_zero_or_pos (2 ^ second - 1) with h0 | h0
  · rw [h0]; omega
  have hm : rotTask N next.length (2 ^ second - 1 - 1 + 1) ∈
      (List.range (2 ^ second - 1)).map fun i => rotTask N next.length (i + 1) :=
    List.mem_map.2 ⟨2 ^ second - 1 - 1, List.mem_range.2 (by omega), rfl⟩
  obtain ⟨k, k', hk⟩ := parFor_mem_ok ht hm
  rw [show 2 ^ second - 1 - 1 + 1 = 2 ^ second - 1 by omega] at hk
  by_contra hc
  unfold rotTask at hk
  unfold Prog.run at hk
  obtain ⟨_, _, hk⟩ := Res.bind_eq_ok.1 hk
  unfold Prog.run at hk
  obtain ⟨_, _, hk⟩ := Res.bind_eq_ok.1 hk
  dsimp only at hk
  rw [if_neg hc] at hk
  cases hk

/-- **C33 (depths beyond the ring, wrong answers).** With 2^max_second_lut_depth above N the packed coefficients may overlap, and the runner
then gives a wrong answer without any error: a sound backend with small noise, ring dimension 8, depth 4, queue size 4, four inputs. -/
theorem C33_flut_too_deep_wrong : ∃ (S : Scheme 8 1 1) (δ : Noise) (Enc : Gsw 1 8 → Bool → Prop) (cs : List (Call (Gsw 1 8)))
    (r r' : Flut 8 1) (c : TLWE 8), S.Sound δ Enc ∧ exGraph.WF ∧ exGraph.size < 2 ^ 4 ∧
    exGraph.size * 2 ^ (4 / 2) * flutErr δ exGraph.size 4 (1 - 1) + 4 * δ.cmux + δ.ks + δ.ms < 2 ^ 30 ∧
    List.Forall₂ (Call.Rel Enc) cs [.feed false, .feed false, .feed false, .feed true, .result] ∧
    Flut.make exGraph 4 4 1 false = .ok r ∧
    runCalls (fun r c => Flut.evalOne S r c) (fun r => Flut.result S r) r cs = .ok ([c], r') ∧
    decryptBit c S.sk = true ∧ exGraph.accepts [false, false, false, true] = .ok false := by
  have hs := toy_sound (N := 8) (n := 1) (l := 1) ⟨fun _ => 0#32, fun _ => 0#32⟩ (by decide) (by decide)
  have hrun : (match (do
      let r ← Flut.make (N := 8) (l := 1) exGraph 4 4 1 false
      runCalls (fun r c => Flut.evalOne (toyScheme 8 1 1 ⟨fun _ => 0#32, fun _ => 0#32⟩) r c)
        (fun r => Flut.result (toyScheme 8 1 1 ⟨fun _ => 0#32, fun _ => 0#32⟩) r) r
        ([false, false, false, true].map (fun b => Call.feed (Scheme.encrypt (toyScheme 8 1 1 ⟨fun _ => 0#32, fun _ => 0#32⟩) 0 b)) ++
          [.result]) : Res _) with
    | .ok ([c], _) => decryptBit c (⟨fun _ => 0#32, fun _ => 0#32⟩ : SecretKey 8 1)
    | _ => false) = true := by decide +kernel
  split at hrun
  · rename_i c r' hc
    obtain ⟨r, h1, h2⟩ := Res.bind_eq_ok.1 hc
    exact ⟨_, toyNoise, toyEnc, _, r, r', c, hs, exGraph_wf, by decide, by decide,
      .cons (.feed (hs.encrypt _ _)) (.cons (.feed (hs.encrypt _ _)) (.cons (.feed (hs.encrypt _ _)) (.cons (.feed (hs.encrypt _ _))
      (.cons .result .nil)))), h1, h2, hrun, by decide⟩
  · cases hrun

end Homfa
