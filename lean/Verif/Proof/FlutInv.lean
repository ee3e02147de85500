import Verif.Proof.FlutEval
import Verif.Spec.FlutErr

/-! FLUT: the invariant over histories. -/

namespace Homfa

variable {N n l : Nat} {S : Scheme N n l} {δ : Noise} {Enc : Gsw l N → Bool → Prop}

theorem flut_make {g : Graph} (hg : g.WF) (max qs boot : Nat) (hqs : qs < 31) :
    ∃ r : Flut N l, Flut.make g max qs boot false = .ok r ∧ r.graph = g ∧ r.maxSecond = max ∧ r.queueSize = qs ∧ r.bootFreq = boot ∧
      r.queued = [] ∧ r.live = [g.init] ∧ r.numEval = 0 ∧ r.weight.length = g.size ∧
      (∀ d ≤ qs, ∃ row, r.memo[d]? = some row ∧ MemoOk g d row) ∧ r.memo.length = qs + 1 ∧
      r.weight[g.init]? = some ((trivialTRLWEZero N).setB0 mu2) := by
  unfold Flut.make
  rw [if_neg (by simp)]
  obtain ⟨w, h1, h2, h3⟩ := foldlM_range_inv (fun k (w : List (TRLWE N)) => w.length = g.size ∧
      ∀ q < g.size, w[q]? = some (if q = g.init ∧ q < k then (trivialTRLWEZero N).setB0 mu2 else trivialTRLWEZero N))
    (f := fun (weight : List (TRLWE N)) st =>
      if st = g.initialState then do
        let w ← vat weight st
        vset weight st (w.setB0 mu2)
      else pure weight) g.size (b := List.replicate g.size (trivialTRLWEZero N))
      ⟨by simp, by intro q hq; rw [List.getElem?_replicate, if_pos hq, if_neg (by omega)]⟩ (by
      rintro i w hi ⟨e1, e2⟩
      by_cases h : i = g.init
      · have hw := e2 i hi
        rw [if_neg (by omega)] at hw
        rw [if_pos (by exact h), vat_eq_ok.2 hw, Res.bind_ok, vset_lt (by omega)]
        refine ⟨_, rfl, by rw [List.length_set, e1], fun q hq => ?_⟩
        by_cases hqi : q = i
        · subst hqi
          rw [List.getElem?_set_self (by omega), if_pos ⟨h, by omega⟩]
        · rw [List.getElem?_set_ne (Ne.symm hqi), e2 q hq, if_neg (by omega), if_neg (by omega)]
      · rw [if_neg (by exact h)]
        refine ⟨w, rfl, e1, fun q hq => ?_⟩
        rw [e2 q hq]
        by_cases hqi : q = g.init
        · by_cases hk : q < i
          · rw [if_pos ⟨hqi, hk⟩, if_pos ⟨hqi, by omega⟩]
          · rw [if_neg (by omega), if_neg (by omega)]
        · rw [if_neg (by omega), if_neg (by omega)])
  obtain ⟨memo, m1, m2, m3⟩ := foldlM_range_inv (fun k (memo : List (List Nat)) => memo.length = k ∧
      ∀ d < k, ∃ row, memo[d]? = some row ∧ MemoOk g d row)
    (f := fun (memo : List (List Nat)) depth => do
      let row ← memoRow g depth
      pure (memo ++ [row])) (qs + 1) (b := []) ⟨rfl, by intro d h; omega⟩ (by
      rintro i memo hi ⟨e1, e2⟩
      obtain ⟨row, r1, r2⟩ := memoRow_ok hg (d := i) (by omega)
      rw [r1, Res.bind_ok]
      refine ⟨_, rfl, by simp [e1], fun d hd => ?_⟩
      by_cases hdi : d < i
      · obtain ⟨row', k1, k2⟩ := e2 d hdi
        exact ⟨row', by rw [List.getElem?_append_left (by omega)]; exact k1, k2⟩
      · have : d = memo.length := by omega
        subst this
        refine ⟨row, by simp, ?_⟩
        rw [e1]; exact r2)
  dsimp only [Graph.allStates]
  have hw := h3 g.init hg.init_lt
  rw [if_pos ⟨rfl, hg.init_lt⟩] at hw
  let r : Flut N l := ⟨g, w, [], max, qs, [g.initialState], memo, 0, boot, 0, 0⟩
  refine ⟨r, ?_, rfl, rfl, rfl, rfl, rfl, rfl, rfl, h2, fun d hd => m3 d (by omega), m2, hw⟩
  rw [h1, Res.bind_ok, m1, Res.bind_ok]
  rfl

theorem flutErr_mono (δ : Noise) {L : Nat} (hL : 0 < L) (qs : Nat) {i j : Nat} (h : i ≤ j) : flutErr δ L qs i ≤ flutErr δ L qs j := by
  induction h with
  | refl => exact Nat.le_refl _
  | @step m _ ih =>
    refine Nat.le_trans ih ?_
    rw [flutErr]
    have h1 : 1 ≤ L * 2 ^ (qs / 2) := Nat.mul_pos hL (Nat.pos_of_ne_zero (by simp))
    have : flutErr δ L qs m ≤ L * 2 ^ (qs / 2) * flutErr δ L qs m := Nat.le_mul_of_pos_left _ h1
    omega

theorem trivialSetB0_phase (key : Fin N → Torus) (i : Fin N) :
    ((trivialTRLWEZero N).setB0 mu2).phase key i = if i.val = 0 then half true else 0 := by
  have : (trivialTRLWEZero N).setB0 mu2 = trivialTRLWE (fun i => if i.val = 0 then mu2 else 0#32) := rfl
  rw [this, phase_trivial]
  rfl

/-- The invariant: `u` is processed, `v` is queued. -/
structure FInv (S : Scheme N n l) (δ : Noise) (Enc : Gsw l N → Bool → Prop) (g : Graph) (max qs boot L : Nat) (r : Flut N l)
    (u v : List Bool) : Prop where
  graph : r.graph = g
  maxSecond : r.maxSecond = max
  queueSize : r.queueSize = qs
  bootFreq : r.bootFreq = boot
  memo : ∀ d ≤ qs, ∃ row, r.memo[d]? = some row ∧ MemoOk g d row
  wlen : r.weight.length = g.size
  queued : List.Forall₂ Enc r.queued v
  live : r.live = g.levelSet [g.init] u.length
  weight : ∀ q ∈ r.live, WHolds S (flutErr δ L qs (r.numEval % boot)) r.weight q (decide (q = u.foldl g.nx g.init))

theorem finv_make {g : Graph} (hg : g.WF) (max qs boot L : Nat) (hqs : qs < 31) :
    ∃ r : Flut N l, Flut.make g max qs boot false = .ok r ∧ FInv S δ Enc g max qs boot L r [] [] := by
  obtain ⟨r, h1, h2, h3, h4, h5, h6, h7, h8, h9, h10, _, h11⟩ := flut_make (N := N) (l := l) hg max qs boot hqs
  refine ⟨r, h1, h2, h3, h4, h5, h10, h9, by rw [h6]; exact .nil, by rw [h7]; rfl, ?_⟩
  intro q hq
  rw [h7, List.mem_singleton] at hq
  subst hq
  refine ⟨_, h11, fun i => ?_⟩
  rw [trivialSetB0_phase]
  simp only [List.foldl_nil, decide_true]
  exact Near.rfl'.mono (Nat.zero_le _)

theorem flut_eval_empty (S : Scheme N n l) {r : Flut N l} (h : r.queued = []) : r.evalQueued S = .ok r := by
  unfold Flut.evalQueued
  rw [h]; rfl

/-- Evaluation of the queue. -/
theorem finv_eval (hS : S.Sound δ Enc) {g : Graph} (hg : g.WF) {max qs boot L : Nat} (hL : ∀ d, (g.levelSet [g.init] d).length ≤ L)
    (hqs : qs < 31) (hmax : max < 31) (hmaxN : 2 ^ max ≤ N) (hboot : 0 < boot)
    (hbud : L * 2 ^ (qs / 2) * flutErr δ L qs (boot - 1) + qs * δ.cmux + δ.ks + δ.ms < 2 ^ 30)
    {r : Flut N l} {u v : List Bool} (h : FInv S δ Enc g max qs boot L r u v) (hv : v.length ≤ qs) :
    (v ≠ [] → 2 ^ max ≤ (g.levelSet [g.init] (u ++ v).length).length → r.evalQueued S = .error .die) ∧
    (v = [] ∨ (g.levelSet [g.init] (u ++ v).length).length < 2 ^ max →
      ∃ r', r.evalQueued S = .ok r' ∧ FInv S δ Enc g max qs boot L r' (u ++ v) []) := by
  by_cases hv0 : v = []
  · subst hv0
    refine ⟨fun h => absurd rfl h, fun _ => ?_⟩
    rw [List.append_nil]
    exact ⟨r, flut_eval_empty S (List.eq_nil_of_length_eq_zero h.queued.length_eq), h⟩
  · have hvl : v.length ≠ 0 := fun hh => hv0 (List.eq_nil_of_length_eq_zero hh)
    have hi : ∀ q ∈ [g.init], q < g.size := by intro q hq; simp at hq; subst hq; exact hg.init_lt
    have hs : SSorted r.live := by rw [h.live]; exact Graph.sorted_levelSet (by simp) _
    have hlt : ∀ q ∈ r.live, q < r.graph.size := by rw [h.live, h.graph]; exact Graph.levelSet_lt hi _
    have hne : r.live ≠ [] := by rw [h.live]; exact levelSet_ne_nil hg _
    obtain ⟨row, hrow, hrow'⟩ := h.memo v.length hv
    have hnext : r.graph.levelSet r.live v.length = g.levelSet [g.init] (u ++ v).length := by
      rw [h.graph, h.live, Graph.levelSet_add, List.length_append]
    have hW : ∀ q ∈ r.live, r.weight[q]? = some (r.weight.getD q (trivialTRLWEZero N)) := by
      intro q hq
      obtain ⟨w, hw, _⟩ := h.weight q hq
      rw [List.getD_eq_getElem?_getD, hw]; rfl
    obtain ⟨e1, e2⟩ := flut_eval_ok S (r := r) (by rw [h.graph]; exact hg) hvl (by omega) h.queued.length_eq hrow
      (by rw [h.graph]; exact hrow') hs hlt hne (by rw [h.maxSecond]; exact hmax) (by rw [h.maxSecond]; exact hmaxN)
      (by rw [h.bootFreq]; omega) (by rw [h.wlen, h.graph]) (W := fun q => r.weight.getD q (trivialTRLWEZero N)) hW
    rw [hnext, h.maxSecond] at e1 e2
    refine ⟨fun _ => e1, fun hh => ?_⟩
    obtain ⟨first, second, w', T1, T2, k1, k2, k3, k4, k5, k6, k7, k8⟩ := e2 (hh.resolve_left hv0)
    have hcur : u.foldl g.nx g.init ∈ r.live := by rw [h.live]; exact hg.run_mem_levelSet hi (by simp) u
    have hN0 : 0 < N := Nat.lt_of_lt_of_le (Nat.pos_of_ne_zero (by simp)) hmaxN
    have hq1 : List.Forall₂ Enc (r.queued.take first) (v.take first) := List.forall₂_take _ h.queued
    have hq2 : List.Forall₂ Enc (r.queued.drop first) (v.drop first) := List.forall₂_drop _ h.queued
    have hp2 : 1 ≤ 2 ^ second := Nat.pos_of_ne_zero (by simp)
    have hmemn : ∀ p ∈ r.live, ∀ x < 2 ^ v.length, (wordOf v.length x).foldl r.graph.nx p ∈ g.levelSet [g.init] (u ++ v).length := by
      intro p hp x hx
      rw [← hnext]
      exact (Graph.mem_level_words (by rw [h.graph]; exact hg) hlt).2 ⟨x, hx, p, hp, rfl⟩
    have hnear : ∀ q ∈ g.levelSet [g.init] (u ++ v).length, ∀ hlt : (g.levelSet [g.init] (u ++ v).length).idxOf q < N,
        Near (L * 2 ^ (qs / 2) * flutErr δ L qs (r.numEval % boot) + qs * δ.cmux)
          ((lutPure S (r.queued.drop first) T2).phase S.sk.lvl1 ⟨(g.levelSet [g.init] (u ++ v).length).idxOf q, hlt⟩)
          (half (decide (q = (u ++ v).foldl g.nx g.init))) := by
      intro q hq hlt'
      have := lookup_near hS (g := r.graph) k1 hmemn hs.nodup k3 hcur (W := fun q => r.weight.getD q (trivialTRLWEZero N))
        (e := flutErr δ L qs (r.numEval % boot)) (by
          intro st hst i
          obtain ⟨w, hw, hwp⟩ := h.weight st hst
          have := hwp i
          rw [List.getD_eq_getElem?_getD, hw]
          exact this) hq1 hq2 (by rw [List.length_take]; omega) (by rw [List.length_drop]; omega) k6 k7 hq hlt'
      rw [List.take_append_drop, h.graph, ← List.foldl_append] at this
      refine this.mono ?_
      have h1 : r.live.length * 2 ^ second ≤ L * 2 ^ (qs / 2) := Nat.mul_le_mul (by rw [h.live]; exact hL _)
        (Nat.pow_le_pow_right (by omega) (by omega))
      have h2 := Nat.mul_le_mul_right (flutErr δ L qs (r.numEval % boot)) h1
      have h3 := Nat.mul_le_mul_right δ.cmux hv
      omega
    refine ⟨_, k4, h.graph, rfl, h.queueSize, h.bootFreq, h.memo, k5.trans (by rw [h.graph]), .nil, rfl, ?_⟩
    intro q hq
    dsimp only at hq ⊢
    have hqN : (g.levelSet [g.init] (u ++ v).length).idxOf q < N := by
      have a1 := List.idxOf_lt_length_iff.2 hq
      have a2 := Nat.mul_le_mul_left (g.levelSet [g.init] (u ++ v).length).length hp2
      omega
    have hqn := hnear q hq hqN
    refine ⟨_, k8 q hq hqN hN0, fun i => ?_⟩
    rw [h.bootFreq]
    have hmod : (r.numEval + 1) % boot = if r.numEval % boot + 1 = boot then 0 else r.numEval % boot + 1 := by
      rw [Nat.add_mod]
      have hlt := Nat.mod_lt r.numEval hboot
      by_cases hb1 : boot = 1
      · subst hb1; simp [Nat.mod_one]
      · rw [Nat.mod_eq_of_lt (show 1 < boot by omega)]
        by_cases hb : r.numEval % boot + 1 = boot
        · rw [if_pos hb, hb, Nat.mod_self]
        · rw [if_neg hb, Nat.mod_eq_of_lt (by omega)]
    have hconv : ∀ (c : TLWE N) (x : Torus) (e : Nat), Near e (c.phase S.sk.lvl1) x →
        Near (e + δ.ik11) ((S.tlwe2trlwe c).phase S.sk.lvl1 i) (if i.val = 0 then x else 0) := by
      intro c x e hc
      have := hS.tlwe2trlwe c i
      by_cases hi0 : i.val = 0
      · rw [if_pos hi0] at this ⊢
        rw [Nat.add_comm]
        exact this.trans hc
      · rw [if_neg hi0] at this ⊢
        exact this.mono (by omega)
    rw [hmod]
    have hlt := Nat.mod_lt r.numEval hboot
    by_cases hb : r.numEval % boot + 1 = boot
    · rw [if_pos hb, if_pos rfl, flutErr]
      refine hconv _ _ _ ?_
      rw [phase_sampleExtract]
      refine hS.bsHalfToHalf (hS.iks_near hqn) ?_ _ rfl
      rw [show r.numEval % boot = boot - 1 by omega]
      omega
    · rw [if_neg hb, if_neg (by omega), flutErr]
      refine hconv _ _ _ ?_
      rw [phase_sampleExtract]
      exact hqn

/-- The sum over the live accepting states. -/
theorem flut_sum {g : Graph} (hg : g.WF) {weight : List (TRLWE N)} {e cur : Nat} (i : Fin N) (hi : i.val = 0) (live : List Nat)
    (hnd : live.Nodup) (hlt : ∀ q ∈ live, q < g.size) (hW : ∀ q ∈ live, WHolds S e weight q (decide (q = cur))) (acc : TRLWE N) :
    ∃ acc', live.foldlM (fun (acc : TRLWE N) st => do
        let f ← g.isFinalState st
        if f then do
          let w ← vat weight st
          pure (acc.add w)
        else pure acc) acc = .ok acc' ∧
      Near (live.length * e) (acc'.phase S.sk.lvl1 i) (acc.phase S.sk.lvl1 i + if cur ∈ live then half (g.fin cur) else 0) := by
  induction live generalizing acc with
  | nil => exact ⟨acc, rfl, by simpa using Near.rfl'⟩
  | cons q live ih =>
    rw [List.nodup_cons] at hnd
    obtain ⟨w, hw, hwp⟩ := hW q (by simp)
    have hwi := hwp i
    rw [if_pos hi] at hwi
    rw [List.foldlM_cons, hg.isFinalState_ok (hlt q (by simp)), Res.bind_ok]
    have ih' := fun acc => ih hnd.2 (fun p hp => hlt p (by simp [hp])) (fun p hp => hW p (by simp [hp])) acc
    have hlen : live.length * e + e = (q :: live).length * e := by rw [List.length_cons, Nat.add_mul]; omega
    cases hf : g.fin q
    · obtain ⟨acc', h1, h2⟩ := ih' acc
      refine ⟨acc', h1, ?_⟩
      have hcond : (if cur ∈ q :: live then half (g.fin cur) else 0) = (if cur ∈ live then half (g.fin cur) else 0) := by
        by_cases hc : cur = q
        · subst hc
          rw [if_pos (by simp), if_neg hnd.1, hf]; rfl
        · simp [hc]
      rw [hcond]
      exact h2.mono (by omega)
    · simp only [if_true]
      rw [vat_eq_ok.2 hw, Res.bind_ok, Res.pure_eq, Res.bind_ok]
      obtain ⟨acc', h1, h2⟩ := ih' (acc.add w)
      refine ⟨acc', h1, ?_⟩
      rw [phase_add] at h2
      dsimp only at h2
      have hcond : (if cur ∈ q :: live then half (g.fin cur) else 0) = half (decide (q = cur)) + (if cur ∈ live then half (g.fin cur) else 0) := by
        by_cases hc : cur = q
        · subst hc
          rw [if_pos (by simp), if_neg hnd.1, hf]; simp
        · rw [decide_eq_false (Ne.symm hc)]
          simp [hc, half]
      rw [hcond, ← add_assoc]
      rw [← hlen]
      have h3 : Near (0 + e + 0) (acc.phase S.sk.lvl1 i + w.phase S.sk.lvl1 i + if cur ∈ live then half (g.fin cur) else 0)
        (acc.phase S.sk.lvl1 i + half (decide (q = cur)) + if cur ∈ live then half (g.fin cur) else 0) :=
        (Near.rfl'.add hwi).add Near.rfl'
      exact (h2.trans h3).mono (by omega)

theorem finv_one (hS : S.Sound δ Enc) {g : Graph} (hg : g.WF) {max qs boot L : Nat} (hL : ∀ d, (g.levelSet [g.init] d).length ≤ L)
    (hqs : qs < 31) (hmax : max < 31) (hmaxN : 2 ^ max ≤ N) (hboot : 0 < boot)
    (hbud : L * 2 ^ (qs / 2) * flutErr δ L qs (boot - 1) + qs * δ.cmux + δ.ks + δ.ms < 2 ^ 30)
    {r : Flut N l} {u v : List Bool} (h : FInv S δ Enc g max qs boot L r u v) (hv : v.length < qs) {c : Gsw l N} {b : Bool} (hc : Enc c b) :
    (r.evalOne S c = .error .die ∧ 2 ^ max ≤ (g.levelSet [g.init] (u ++ v ++ [b]).length).length) ∨
    ∃ r' u' v', r.evalOne S c = .ok r' ∧ FInv S δ Enc g max qs boot L r' u' v' ∧ u' ++ v' = u ++ v ++ [b] ∧ v'.length < qs := by
  unfold Flut.evalOne
  dsimp only
  have hq2 : List.Forall₂ Enc (r.queued ++ [c]) (v ++ [b]) := List.rel_append h.queued (.cons hc .nil)
  have hinv : FInv S δ Enc g max qs boot L { r with queued := r.queued ++ [c] } u (v ++ [b]) :=
    ⟨h.graph, h.maxSecond, h.queueSize, h.bootFreq, h.memo, h.wlen, hq2, h.live, h.weight⟩
  have hl : (v ++ [b]).length = v.length + 1 := by simp
  by_cases hlt : (r.queued ++ [c]).length < r.queueSize
  · rw [if_pos hlt]
    refine .inr ⟨_, u, v ++ [b], rfl, hinv, by simp, ?_⟩
    rw [hq2.length_eq, h.queueSize] at hlt
    exact hlt
  · rw [if_neg hlt]
    obtain ⟨h1, h2⟩ := finv_eval hS hg hL hqs hmax hmaxN hboot hbud hinv (by omega)
    rw [← List.append_assoc] at h1 h2
    by_cases hsz : (g.levelSet [g.init] (u ++ v ++ [b]).length).length < 2 ^ max
    · obtain ⟨r', k1, k2⟩ := h2 (.inr hsz)
      exact .inr ⟨r', _, [], k1, k2, by simp, by simp; omega⟩
    · exact .inl ⟨h1 (by simp) (by omega), by omega⟩

theorem finv_result (hS : S.Sound δ Enc) {g : Graph} (hg : g.WF) {max qs boot L : Nat} (hL : ∀ d, (g.levelSet [g.init] d).length ≤ L)
    (hqs : qs < 31) (hmax : max < 31) (hmaxN : 2 ^ max ≤ N) (hboot : 0 < boot)
    (hbud : L * 2 ^ (qs / 2) * flutErr δ L qs (boot - 1) + qs * δ.cmux + δ.ks + δ.ms < 2 ^ 30)
    {r : Flut N l} {u v : List Bool} (h : FInv S δ Enc g max qs boot L r u v) (hv : v.length < qs) :
    (r.result S = .error .die ∧ 2 ^ max ≤ (g.levelSet [g.init] (u ++ v).length).length) ∨
    ∃ c r', r.result S = .ok (c, r') ∧ FInv S δ Enc g max qs boot L r' (u ++ v) [] ∧
      Near (L * flutErr δ L qs (boot - 1)) (c.phase S.sk.lvl1) (half (g.fin ((u ++ v).foldl g.nx g.init))) := by
  obtain ⟨h1, h2⟩ := finv_eval hS hg hL hqs hmax hmaxN hboot hbud h (by omega)
  unfold Flut.result
  by_cases hok : v = [] ∨ (g.levelSet [g.init] (u ++ v).length).length < 2 ^ max
  · obtain ⟨r', k1, k2⟩ := h2 hok
    have hN0 : 0 < N := Nat.lt_of_lt_of_le (Nat.pos_of_ne_zero (by simp)) hmaxN
    have hi : ∀ q ∈ [g.init], q < g.size := by intro q hq; simp at hq; subst hq; exact hg.init_lt
    have hL0 : 0 < L := by
      have a := hL 0
      rw [show g.levelSet [g.init] 0 = [g.init] from rfl, List.length_singleton] at a
      omega
    have hs : SSorted r'.live := by rw [k2.live]; exact Graph.sorted_levelSet (by simp) _
    have hlt : ∀ q ∈ r'.live, q < g.size := by rw [k2.live]; exact Graph.levelSet_lt hi _
    obtain ⟨acc, a1, a2⟩ := flut_sum (S := S) hg (cur := (u ++ v).foldl g.nx g.init) ⟨0, hN0⟩ rfl r'.live hs.nodup hlt k2.weight (trivialTRLWEZero N)
    refine .inr ⟨sampleExtract acc ⟨0, hN0⟩, r', ?_, k2, ?_⟩
    · rw [k1, Res.bind_ok, k2.graph, a1, Res.bind_ok, sampleExtractAt_ok hN0]; rfl
    · rw [phase_sampleExtract]
      have hcur : (u ++ v).foldl g.nx g.init ∈ r'.live := by rw [k2.live]; exact hg.run_mem_levelSet hi (by simp) _
      rw [if_pos hcur] at a2
      have hz : (trivialTRLWEZero N).phase S.sk.lvl1 ⟨0, hN0⟩ = 0 := congrFun (phase_trivial (fun _ => 0#32) _) _
      rw [hz, zero_add] at a2
      refine a2.mono (Nat.mul_le_mul (by rw [k2.live]; exact hL _) (flutErr_mono δ hL0 qs ?_))
      have := Nat.mod_lt r'.numEval hboot
      omega
  · rw [not_or] at hok
    rw [h1 hok.1 (by omega)]
    exact .inl ⟨rfl, by omega⟩

end Homfa
