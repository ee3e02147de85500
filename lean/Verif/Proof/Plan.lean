import Verif.Spec.Plan
import Verif.Proof.Count
import Verif.Proof.FlutInv
import Verif.Props.Block
import Verif.Props.Flut
import Verif.Proof.Patch

/-! # The list of calls of a whole run -/

namespace Homfa

variable {N n l : Nat} {α β σ ι : Type} {S : Scheme N n l}

open Homfa.Comp

theorem Backstream.evalC_boot {r r' : Backstream N} {c : Gsw l N} (h : (r.evalC c : Comp N n l _).run S = .ok r') :
    r'.bootInterval = r.bootInterval := by
  unfold Backstream.evalC at h
  obtain ⟨sts, h0, h, _⟩ := ret_inv h
  obtain ⟨m, h1, h, _⟩ := bind_inv h
  obtain ⟨p, h2, h, _⟩ := ret_inv h
  dsimp only at h
  by_cases hb : r.bootInterval = 0
  · rw [if_pos hb] at h; cases h
  · rw [if_neg hb] at h
    by_cases hd : (r.numProcessed + 1) % r.bootInterval = 0
    · rw [if_pos hd] at h
      unfold Backstream.bootstrapWeightC at h
      obtain ⟨m, h1, h, _⟩ := bind_inv h
      obtain ⟨w, h2, h, _⟩ := ret_inv h
      cases h
      rfl
    · rw [if_neg hd] at h
      cases h
      rfl

theorem backstream_plan {G : Graph} {isz : Option Nat} {sz : Nat → Nat} {M : Nat} {boot : Nat}
    (hsz : ∀ np sts, np < M → evalStates G isz np = .ok sts → sts.length = sz np) (cs : List (Gsw l N)) :
    ∀ (r r' : Backstream N), r.numProcessed + cs.length ≤ M → r.graph = G → r.inputSize = isz → r.bootInterval = boot → (cs.foldlM Backstream.evalC r : Comp N n l _).run S = .ok r' →
    (cs.foldlM Backstream.evalC r : Comp N n l _).kinds S = (List.range cs.length).flatMap fun i =>
      List.replicate (sz (r.numProcessed + i)) .cmux ++
        if (r.numProcessed + i + 1) % boot = 0 then (List.replicate (sz (r.numProcessed + i)) [.keySwitch, .blindRotate]).flatten else [] := by
  induction cs with
  | nil => intro r r' _ _ _ _ _; rfl
  | cons c cs ih =>
    intro r r' hM hg hi hb h
    rw [List.foldlM_cons] at h ⊢
    obtain ⟨a, h1, h2, h3⟩ := bind_inv h
    obtain ⟨sts, e1, e2, _, e4, e5, e6⟩ := Backstream.evalC_kinds h1
    have e7 : a.bootInterval = r.bootInterval := Backstream.evalC_boot h1
    rw [h3, ih _ _ (by rw [e6]; rw [List.length_cons] at hM; omega) (e4.trans hg) (e5.trans hi) (e7.trans hb) h2, e2, e6, List.length_cons, List.range_succ_eq_map, List.flatMap_cons,
      List.flatMap_map]
    rw [hg, hi] at e1
    rw [hsz _ _ (by rw [List.length_cons] at hM; omega) e1, hb]
    congr 1
    refine List.flatMap_congr fun i _ => ?_
    rw [show r.numProcessed + 1 + i = r.numProcessed + i.succ by omega]

/-- a runner with a queue of `q` -/
theorem queue_plan {ρ : Type} {eval : ρ → Gsw l N → Comp N n l ρ} {fin : ρ → Comp N n l β} {I : Nat → Nat → ρ → Prop}
    {plan : Nat → Nat → List CallKind} {q : Nat} 
    (h1 : ∀ b k r c r', I b k r → k < q → (eval r c).run S = .ok r' →
      (k + 1 < q ∧ (eval r c).kinds S = [] ∧ I b (k + 1) r') ∨ (k + 1 = q ∧ (eval r c).kinds S = plan b q ∧ I (b + 1) 0 r'))
    (h2 : ∀ b k r x, I b k r → k < q → (fin r).run S = .ok x → (fin r).kinds S = if k = 0 then [] else plan b k) (cs : List (Gsw l N)) :
    ∀ (b k : Nat) (r r1 : ρ) (x : β), I b k r → k < q → (cs.foldlM eval r).run S = .ok r1 → (fin r1).run S = .ok x →
      (cs.foldlM eval r).kinds S ++ (fin r1).kinds S =
        (List.range ((k + cs.length + q - 1) / q)).flatMap fun i => plan (b + i) (min q (k + cs.length - i * q)) := by
  induction cs with
  | nil =>
    intro b k r r1 x hI hk e h
    cases e
    rw [List.foldlM_nil, kinds_pure, List.nil_append, h2 b k _ x hI hk h]
    by_cases h0 : k = 0
    · rw [if_pos h0, h0, Nat.div_eq_of_lt (by simp; omega)]; rfl
    · rw [if_neg h0, show (k + [].length + q - 1) / q = 1 from ?_]
      · simp [Nat.min_eq_right (Nat.le_of_lt hk)]
      · rw [List.length_nil, show k + 0 + q - 1 = q * 1 + (k - 1) by omega, Nat.mul_add_div (by omega), Nat.div_eq_of_lt (by omega)]
  | cons c cs ih =>
    intro b k r r1 x hI hk e0 h
    rw [List.foldlM_cons] at e0 ⊢
    obtain ⟨r', e1, e2, e⟩ := bind_inv e0; rw [e, List.append_assoc]; clear e
    rcases h1 b k r c r' hI hk e1 with ⟨k1, k2, k3⟩ | ⟨k1, k2, k3⟩
    · rw [k2, List.nil_append, ih _ _ _ _ _ k3 k1 e2 h, List.length_cons, show k + 1 + cs.length = k + (cs.length + 1) by omega]
    · rw [k2, ih _ _ _ _ _ k3 (by omega) e2 h, List.length_cons, show k + (cs.length + 1) = q + cs.length by omega,
        show q + cs.length + q - 1 = q * 1 + (cs.length + q - 1) by omega, Nat.mul_add_div (by omega), Nat.add_comm 1, List.range_succ_eq_map,
        List.flatMap_cons, List.flatMap_map, Nat.zero_add]
      congr 1
      · simp
      · refine List.flatMap_congr fun i _ => ?_
        rw [Nat.succ_mul, show b + 1 + i = b + i.succ by omega, show q + cs.length - (i * q + q) = cs.length - i * q by omega]

/-! ## BLOCK -/

/-- `b` blocks of `q` are evaluated and `k` ciphertexts are pending -/
structure BlockAt (g : Graph) (q qs b k : Nat) (r : Block N l) : Prop where
  graph : r.graph = g
  queueSize : r.queueSize = qs
  queued : r.queued.length = k
  live : r.live = g.levelSet [g.init] (b * q)

theorem Block.evalQueuedC_shape {r r' : Block N l} (h : (r.evalQueuedC : Comp N n l _).run S = .ok r') (h0 : r.queued.length ≠ 0) :
    r'.graph = r.graph ∧ r'.queueSize = r.queueSize ∧ r'.queued = [] := by
  unfold Block.evalQueuedC at h
  dsimp only at h
  rw [if_neg h0] at h
  obtain ⟨d, hd, h, _⟩ := ret_inv h
  obtain ⟨w, _, h, _⟩ := ret_inv h
  obtain ⟨p, h1, h, _⟩ := bind_inv h
  by_cases hl : r.live.length = 1
  · rw [if_pos hl] at h
    obtain ⟨_, _, h, _⟩ := ret_inv h
    obtain ⟨_, _, h, _⟩ := ret_inv h
    cases h
    exact ⟨rfl, rfl, rfl⟩
  · rw [if_neg hl] at h
    obtain ⟨_, _, h, _⟩ := ret_inv h
    obtain ⟨_, _, h, _⟩ := ret_inv h
    obtain ⟨m, h2, h, _⟩ := bind_inv h
    obtain ⟨cond, hc, h, _⟩ := ret_inv h
    obtain ⟨_, _, h, _⟩ := ret_inv h
    obtain ⟨_, _, h, _⟩ := ret_inv h
    obtain ⟨t, h3, h, _⟩ := bind_inv h
    obtain ⟨_, _, h, _⟩ := ret_inv h
    cases h
    exact ⟨rfl, rfl, rfl⟩

theorem block_queue {g : Graph} (hg : g.WF) {q qs : Nat} {b k : Nat} {r r' : Block N l} (h : BlockAt g q qs b k r) (hk : k ≠ 0) (hint : k ≤ 2 ^ 31)
    (hr : (r.evalQueuedC : Comp N n l _).run S = .ok r') :
    (r.evalQueuedC : Comp N n l _).kinds S = blockCalls (fun j => (g.levelSet [g.init] j).length) (b * q) k ∧
      r'.graph = g ∧ r'.queueSize = qs ∧ r'.queued = [] ∧ r'.live = g.levelSet [g.init] (b * q + k) := by
  have hi : ∀ q ∈ [g.init], q < g.size := by simpa using hg.init_lt
  have hlt : ∀ q ∈ r.live, q < r.graph.size := by rw [h.live, h.graph]; exact Graph.levelSet_lt hi _
  obtain ⟨_, _, _, h1⟩ := Block.evalQueuedC_records hr
  obtain ⟨d, hd, h2, h3⟩ := h1 (by rw [h.queued]; exact hk)
  have hins : sinsertAll [] r.live = r.live :=
    (sorted_sinsertAll List.Pairwise.nil).ext (by rw [h.live]; exact Graph.sorted_levelSet (by simp) _) (by simp)
  rw [Graph.trackLiveStates_ok (by rw [h.graph]; exact hg) hlt, hins] at hd
  have hd' : d = (List.range (k + 1)).map fun j => g.levelSet [g.init] (b * q + j) := by
    cases hd
    rw [List.range_succ_eq_map, List.map_cons, List.map_map, h.queued, h.graph, h.live]
    simp only [Graph.levelSet_add]
    rfl
  obtain ⟨f1, f2, f3⟩ := Block.evalQueuedC_shape hr (by rw [h.queued]; exact hk)
  refine ⟨?_, f1.trans h.graph, f2.trans h.queueSize, f3, ?_⟩
  · rw [h3, h.queued, h.live, blockCalls, countDown_eq hint, hd']
    congr 2
    rw [List.range_succ, List.map_append, List.take_left' (by simp), List.map_map]
    rfl
  · rw [h2, hd', List.range_succ, List.map_append]; simp

theorem block_step {g : Graph} (hg : g.WF) {q qs : Nat} (hq : q = max 1 qs) (hint : qs ≤ 2 ^ 31) (b k : Nat) (r : Block N l) (c : Gsw l N) (r' : Block N l)
    (h : BlockAt g q qs b k r) (hk : k < q) (hr : (r.evalOneC c : Comp N n l _).run S = .ok r') :
    (k + 1 < q ∧ (r.evalOneC c : Comp N n l _).kinds S = [] ∧ BlockAt g q qs b (k + 1) r') ∨
    (k + 1 = q ∧ (r.evalOneC c : Comp N n l _).kinds S = blockCalls (fun j => (g.levelSet [g.init] j).length) (b * q) q ∧
      BlockAt g q qs (b + 1) 0 r') := by
  unfold Block.evalOneC at hr ⊢
  dsimp only at hr ⊢
  have hlen : (r.queued ++ [c]).length = k + 1 := by simp [h.queued]
  have h' : BlockAt g q qs b (k + 1) { r with queued := r.queued ++ [c] } := ⟨h.graph, h.queueSize, hlen, h.live⟩
  by_cases hc : (r.queued ++ [c]).length < r.queueSize
  · rw [if_pos hc] at hr ⊢
    cases hr
    rw [h.queueSize, hlen] at hc
    exact .inl ⟨by omega, rfl, h'⟩
  · rw [if_neg hc] at hr ⊢
    rw [h.queueSize, hlen] at hc
    have hkq : k + 1 = q := by omega
    obtain ⟨e1, e2, e3, e4, e5⟩ := block_queue hg h' (by omega) (by omega) hr
    rw [hkq] at e1 e5
    exact .inr ⟨hkq, e1, e2, e3, by rw [e4]; rfl, by rw [e5, Nat.succ_mul]⟩

theorem block_last {g : Graph} (hg : g.WF) {q qs : Nat} (hint : q ≤ 2 ^ 31) (b k : Nat) (r : Block N l) (x : TLWE N × Block N l)
    (h : BlockAt g q qs b k r) (hkq : k < q) (hr : (r.resultC : Comp N n l _).run S = .ok x) :
    (r.resultC : Comp N n l _).kinds S = if k = 0 then [] else blockCalls (fun j => (g.levelSet [g.init] j).length) (b * q) k := by
  unfold Block.resultC at hr ⊢
  obtain ⟨r1, h1, hr, e⟩ := bind_inv hr; rw [e]; clear e
  suffices h2 : (r.evalQueuedC : Comp N n l _).kinds S = if k = 0 then [] else blockCalls (fun j => (g.levelSet [g.init] j).length) (b * q) k by
    rw [← h2]
    cases hs : r1.selector with
    | none => rw [hs] at hr; cases hr
    | some s =>
      rw [hs] at hr
      obtain ⟨_, _, hr, e⟩ := ret_inv hr
      dsimp only; rw [e, kinds_pure, List.append_nil]
  by_cases hk : k = 0
  · rw [if_pos hk]
    unfold Block.evalQueuedC
    dsimp only
    rw [if_pos (by rw [h.queued, hk])]
    rfl
  · rw [if_neg hk]
    exact (block_queue hg h hk (by omega) h1).1

/-! ## FLUT -/

/-- `b` blocks of `q` are evaluated and `k` ciphertexts are pending -/
structure FlutAt (g : Graph) (q maxSecond boot b k : Nat) (r : Flut N l) : Prop where
  graph : r.graph = g
  maxSecond : r.maxSecond = maxSecond
  queueSize : r.queueSize = q
  bootFreq : r.bootFreq = boot
  memo : ∀ d ≤ q, ∃ row, r.memo[d]? = some row ∧ MemoOk g d row
  queued : r.queued.length = k
  live : r.live = g.levelSet [g.init] (b * q)
  numEval : r.numEval = b

theorem Flut.evalQueuedC_shape {r r' : Flut N l} (h : (r.evalQueuedC : Comp N n l _).run S = .ok r') (h0 : r.queued.length ≠ 0) :
    (∃ row, vat r.memo r.queued.length = .ok row ∧ flutNext r.graph row r.live r.queued.length = .ok r'.live) ∧
      lutDepths r.maxSecond r'.live.length r.queued.length = .ok (r'.first, r'.second) ∧
      r'.graph = r.graph ∧ r'.maxSecond = r.maxSecond ∧ r'.queueSize = r.queueSize ∧ r'.memo = r.memo := by
  unfold Flut.evalQueuedC at h
  dsimp only at h
  rw [if_neg h0] at h
  obtain ⟨memo, hm, h, _⟩ := ret_inv h
  obtain ⟨next, hn, h, _⟩ := ret_inv h
  obtain ⟨_, _, h, _⟩ := ret_inv h
  obtain ⟨d, hd, h, _⟩ := ret_inv h
  obtain ⟨_, _, h, _⟩ := ret_inv h
  obtain ⟨_, _, h, _⟩ := ret_inv h
  obtain ⟨_, _, h, _⟩ := ret_inv h
  obtain ⟨t1, h1, h, _⟩ := bind_inv h
  obtain ⟨_, _, h, _⟩ := ret_inv h
  obtain ⟨t2, h2, h, _⟩ := bind_inv h
  by_cases hb : r.bootFreq = 0
  · rw [if_pos hb] at h; cases h
  · rw [if_neg hb] at h
    obtain ⟨m, h3, h, _⟩ := bind_inv h
    obtain ⟨_, _, h, _⟩ := ret_inv h
    cases h
    exact ⟨⟨memo, hm, hn⟩, hd, rfl, rfl, rfl, rfl⟩

theorem flut_queue {g : Graph} (hg : g.WF) {q maxSecond boot : Nat} (hq : q < 31) {b k : Nat} {r r' : Flut N l}
    (h : FlutAt g q maxSecond boot b k r) (hk : k ≠ 0) (hkq : k ≤ q) (hr : (r.evalQueuedC : Comp N n l _).run S = .ok r') :
    (r.evalQueuedC : Comp N n l _).kinds S = flutCalls (fun j => (g.levelSet [g.init] j).length) maxSecond boot b (b * q) k ∧
      r'.graph = g ∧ r'.maxSecond = maxSecond ∧ r'.queueSize = q ∧ r'.bootFreq = boot ∧ r'.memo = r.memo ∧ r'.queued = [] ∧
      r'.live = g.levelSet [g.init] (b * q + k) ∧ r'.numEval = b + 1 := by
  have h0 : r.queued.length ≠ 0 := by rw [h.queued]; exact hk
  obtain ⟨e1, e2, e3, e4, e5⟩ := Flut.evalQueuedC_kinds hr h0
  obtain ⟨⟨row, f1, f2⟩, f3, f4, f5, f6, f7⟩ := Flut.evalQueuedC_shape hr h0
  rw [h.queued] at f1 f2 f3 e2
  have hi : ∀ q ∈ [g.init], q < g.size := by simpa using hg.init_lt
  obtain ⟨row', m1, m2⟩ := h.memo k hkq
  have : row' = row := by
    unfold vat at f1
    rw [m1] at f1
    exact Except.ok.inj f1
  subst this
  rw [h.graph, flutNext_ok hg (by omega) m2 (by rw [h.live]; exact Graph.levelSet_lt hi _) hk, h.live, Graph.levelSet_add] at f2
  have hlive := (Except.ok.inj f2).symm
  refine ⟨?_, f4.trans h.graph, f5.trans h.maxSecond, f6.trans h.queueSize, e5.trans h.bootFreq, f7, e3, hlive, by rw [e4, h.numEval]⟩
  have hd : r'.second = min (k / 2) (maxSecond - Nat.clog 2 (g.levelSet [g.init] (b * q + k)).length) := by
    unfold lutDepths at f3
    obtain ⟨cap, _, f3⟩ := Res.bind_eq_ok.1 f3
    split at f3
    · cases f3
    · obtain ⟨_, hc, f3⟩ := Res.bind_eq_ok.1 f3
      have := (Prod.mk.inj (Except.ok.inj f3)).2
      rw [← this, h.maxSecond, hlive]
  rw [e1, flutCalls, ← hd, show k - r'.second = r'.first by omega, hlive, h.numEval, h.bootFreq]

theorem flut_step {g : Graph} (hg : g.WF) {q maxSecond boot : Nat} (hq : q < 31) (b k : Nat) (r : Flut N l) (c : Gsw l N)
    (r' : Flut N l) (h : FlutAt g q maxSecond boot b k r) (hk : k < q) (hr : (r.evalOneC c : Comp N n l _).run S = .ok r') :
    (k + 1 < q ∧ (r.evalOneC c : Comp N n l _).kinds S = [] ∧ FlutAt g q maxSecond boot b (k + 1) r') ∨
    (k + 1 = q ∧ (r.evalOneC c : Comp N n l _).kinds S =
        flutCalls (fun j => (g.levelSet [g.init] j).length) maxSecond boot b (b * q) q ∧
      FlutAt g q maxSecond boot (b + 1) 0 r') := by
  unfold Flut.evalOneC at hr ⊢
  dsimp only at hr ⊢
  have hlen : (r.queued ++ [c]).length = k + 1 := by simp [h.queued]
  have h' : FlutAt g q maxSecond boot b (k + 1) { r with queued := r.queued ++ [c] } :=
    ⟨h.graph, h.maxSecond, h.queueSize, h.bootFreq, h.memo, hlen, h.live, h.numEval⟩
  by_cases hc : (r.queued ++ [c]).length < r.queueSize
  · rw [if_pos hc] at hr ⊢
    cases hr
    rw [h.queueSize, hlen] at hc
    exact .inl ⟨by omega, rfl, h'⟩
  · rw [if_neg hc] at hr ⊢
    rw [h.queueSize, hlen] at hc
    have hkq : k + 1 = q := by omega
    obtain ⟨e1, e2, e3, e4, e5, e6, e7, e8, e9⟩ := flut_queue hg hq h' (by omega) (by omega) hr
    rw [hkq] at e1 e8
    exact .inr ⟨hkq, e1, e2, e3, e4, e5, by rw [e6]; exact h.memo, by rw [e7]; rfl, by rw [e8, Nat.succ_mul], e9⟩

theorem flut_last {g : Graph} (hg : g.WF) {q maxSecond boot : Nat} (hq : q < 31) (b k : Nat) (r : Flut N l) (x : TLWE N × Flut N l)
    (h : FlutAt g q maxSecond boot b k r) (hk : k < q) (hr : (r.resultC : Comp N n l _).run S = .ok x) :
    (r.resultC : Comp N n l _).kinds S =
      if k = 0 then [] else flutCalls (fun j => (g.levelSet [g.init] j).length) maxSecond boot b (b * q) k := by
  unfold Flut.resultC at hr ⊢
  obtain ⟨r1, h1, hr, e⟩ := bind_inv hr; rw [e]; clear e
  obtain ⟨_, _, hr, e⟩ := ret_inv hr; rw [e]; clear e
  obtain ⟨_, _, hr, e⟩ := ret_inv hr; rw [e]; clear e
  rw [kinds_pure, List.append_nil]
  by_cases hk0 : k = 0
  · rw [if_pos hk0]
    unfold Flut.evalQueuedC
    dsimp only
    rw [if_pos (by rw [h.queued, hk0])]
    rfl
  · rw [if_neg hk0]
    exact (flut_queue hg hq h hk0 (by omega) h1).1

/-- the loop of the online commands without an output directory -/
theorem onlineLoopC_none {ρ : Type} (evalOne : ρ → Gsw l N → Comp N n l ρ) (result : ρ → Comp N n l (TLWE N × ρ)) (freq : Nat)
    (cs : List (Gsw l N)) : ∀ (i : Nat) (r : ρ) p, (onlineLoopC evalOne result none freq cs i r).run S = .ok p →
    (cs.foldlM evalOne r).run S = .ok p.2 ∧ (onlineLoopC evalOne result none freq cs i r).kinds S = (cs.foldlM evalOne r).kinds S := by
  induction cs with
  | nil => intro i r p h; cases h; exact ⟨rfl, rfl⟩
  | cons c cs ih =>
    intro i r p h
    rw [onlineLoopC] at h ⊢
    rw [List.foldlM_cons]
    obtain ⟨r1, h1, h, e⟩ := bind_inv h; rw [e]; clear e
    rw [kinds_bind_ok h1, run_bind, h1, Res.bind_ok]
    obtain ⟨a, b⟩ := ih _ _ _ h
    exact ⟨a, by rw [b]⟩

theorem toyEnc_sensible_all (hN : 0 < N) (hl : 0 < l) : SensibleEnc (toyEnc : Gsw l N → Bool → Prop) where
  functional := by
    rintro g ⟨⟨_, _, h1⟩, ⟨_, _, h2⟩⟩
    rw [h1] at h2
    simp at h2
  exists_enc b := ⟨fun _ _ _ => if b then 1#64 else 0#64, hl, hN, rfl⟩

/-- there is a library that makes no errors -/
theorem exact_scheme (N n l : Nat) (hN : 0 < N) (hl : 0 < l) :
    ∃ T : Scheme N n l, T.Sound ⟨0, 0, 0, 0, 0, 0⟩ (toyEnc : Gsw l N → Bool → Prop) := by
  have hE := toyEnc_sensible_all hN hl
  obtain ⟨E, hEE⟩ := Classical.axiomOfChoice hE.exists_enc
  exact ⟨_, Scheme.patch_sound (S := toyScheme N n l ⟨fun _ => 0#32, fun _ => 0#32⟩) hEE hE.functional⟩

end Homfa
