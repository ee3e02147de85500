import Verif.Props.Determinize
import Verif.Props.Tfhe
import Verif.Spec.History
import Verif.Proof.Block

/-!
# C30, C31, C48 (BLOCK runner)

A history is a list of calls, `feed` for `eval_one` and `result` for `result()`; `resultWords` (Spec/History.lean) lists, for each
`result()` of the history, the inputs fed before it.
-/

namespace Homfa

variable {N n l : Nat} {S : Scheme N n l} {δ : Noise} {Enc : Gsw l N → Bool → Prop}

/-- `B` bits are enough to number the states reachable in exactly `d` steps, for every `d`. -/
def LiveBits (g : Graph) (B : Nat) : Prop :=
  ∀ (d : Nat) (L : List Nat), L.Nodup → (∀ q ∈ L, ∃ w : List Bool, w.length = d ∧ g.runWord g.initialState w = .ok q) →
    L.length < 2 ^ B

theorem LiveBits.level {g : Graph} (hg : g.WF) {B : Nat} (h : LiveBits g B) (d : Nat) : (g.levelSet [g.init] d).length < 2 ^ B := by
  have hi : ∀ q ∈ [g.init], q < g.size := by intro q hq; simp at hq; subst hq; exact hg.init_lt
  refine h d _ (Graph.sorted_levelSet (by simp) d).nodup (fun q hq => ?_)
  obtain ⟨p, hp, w, hw, hr⟩ := (hg.mem_levelSet hi).1 hq
  simp at hp
  subst hp
  exact ⟨w, hw, by rw [show g.initialState = g.init from rfl, (hg.run_ok hg.init_lt w).1, hr]⟩

/-- any graph with fewer than 2^B states -/
theorem liveBits_of_size {g : Graph} (hg : g.WF) {B : Nat} (h : g.size < 2 ^ B) : LiveBits g B := by
  intro d L hnd hL
  have := List.Nodup.length_le_of_subset (l₁ := L) (l₂ := List.range g.size) hnd (fun q hq => by
    obtain ⟨w, _, hr⟩ := hL q hq
    rw [show g.initialState = g.init from rfl, (hg.run_ok hg.init_lt w).1] at hr
    rw [List.mem_range, ← Except.ok.inj hr]
    exact hg.run_lt hg.init_lt w)
  rw [List.length_range] at this
  omega

/-- **C31.** Over any history whose first call is not `result()`, no call fails and the error of every result is at most
`queue_size + B` CMUX errors (a queue size of 0 acts like 1), however long the history is. -/
theorem C31_block_noise (hS : S.Sound δ Enc) (g : Graph) (hg : g.WF) (qs B : Nat) (hB : LiveBits g B) (hBN : B < N) (hB31 : B < 31)
    (hbud : (max 1 qs + B) * δ.cmux + δ.cb < 2 ^ 29) (hint : qs ≤ 2 ^ 31)
    (cs : List (Call (Gsw l N))) (ps : List (Call Bool)) (hcs : List.Forall₂ (Call.Rel Enc) cs ps)
    (hfirst : ∀ rest, ps ≠ .result :: rest) :
    ∃ r r' outs, Block.make g qs false = .ok r ∧
      runCalls (fun r c => Block.evalOne S r c) (fun r => Block.result S r) r cs = .ok (outs, r') ∧
      List.Forall₂ (fun (c : TLWE N) u => ∃ b, g.accepts u = .ok b ∧
        Near ((max 1 qs + B) * δ.cmux) (c.phase S.sk.lvl1) (half b)) outs (resultWords [] ps) := by
  have key : ∀ (cs : List (Call (Gsw l N))) (ps : List (Call Bool)), List.Forall₂ (Call.Rel Enc) cs ps →
      ∀ (r : Block N l) (u v : List Bool), BInv S Enc g qs ((max 1 qs + B) * δ.cmux) r u v → v.length + 1 ≤ max 1 qs →
      (u ++ v = [] → ∀ rest, ps ≠ .result :: rest) →
      ∃ r' outs, runCalls (fun r c => Block.evalOne S r c) (fun r => Block.result S r) r cs = .ok (outs, r') ∧
      List.Forall₂ (fun (c : TLWE N) u => ∃ b, g.accepts u = .ok b ∧
        Near ((max 1 qs + B) * δ.cmux) (c.phase S.sk.lvl1) (half b)) outs (resultWords (u ++ v) ps) := by
    intro cs ps h
    induction h with
    | nil => intro r u v _ _ _; exact ⟨r, [], rfl, .nil⟩
    | @cons c p cs ps hc _ ih =>
      intro r u v hI hv hne
      cases hc with
      | @feed x y hxy =>
        obtain ⟨r', u', v', h1, h2, h3, h4⟩ := binv_one hS hg (hB.level hg) hBN hB31 hbud hI hv hint (Nat.le_refl _) hxy
        obtain ⟨r'', outs, k1, k2⟩ := ih r' u' v' h2 h4 (by intro hn; rw [h3] at hn; simp at hn)
        refine ⟨r'', outs, ?_, ?_⟩
        · rw [runCalls, h1]; exact k1
        · rw [resultWords, ← h3]; exact k2
      | result =>
        have hne' : u ++ v ≠ [] := fun hn => hne hn _ rfl
        obtain ⟨c, r', h1, h2, h3⟩ := binv_result hS hg (hB.level hg) hBN hB31 hbud hI hv hint (Nat.le_refl _) hne'
        obtain ⟨r'', outs, k1, k2⟩ := ih r' (u ++ v) [] h2 (by simp) (by intro hn; simp at hn; exact absurd hn (by simpa using hne'))
        refine ⟨r'', c :: outs, ?_, ?_⟩
        · rw [runCalls, h1]
          show (runCalls _ _ r' cs >>= _) = _
          rw [k1]; rfl
        · rw [resultWords]
          refine .cons ⟨_, hg.accepts_eq _, h3⟩ ?_
          rw [List.append_nil] at k2
          exact k2
  obtain ⟨r, h1, h2, _⟩ := binv_make (S := S) (Enc := Enc) (g := g) qs ((max 1 qs + B) * δ.cmux)
  obtain ⟨r', outs, h3, h4⟩ := key cs ps hcs r [] [] h2 (by simp) (fun _ => hfirst)
  exact ⟨r, r', outs, h1, h3, h4⟩

/-- **C30.** Over any history whose first call is not `result()`, no call fails and every result decrypts to whether the graph accepts
the inputs fed so far. -/
theorem C30_block_decides (hS : S.Sound δ Enc) (g : Graph) (hg : g.WF) (qs B : Nat) (hB : LiveBits g B) (hBN : B < N) (hB31 : B < 31)
    (hbud : (max 1 qs + B) * δ.cmux + δ.cb < 2 ^ 29) (hint : qs ≤ 2 ^ 31)
    (cs : List (Call (Gsw l N))) (ps : List (Call Bool)) (hcs : List.Forall₂ (Call.Rel Enc) cs ps)
    (hfirst : ∀ rest, ps ≠ .result :: rest) :
    ∃ r r' outs, Block.make g qs false = .ok r ∧
      runCalls (fun r c => Block.evalOne S r c) (fun r => Block.result S r) r cs = .ok (outs, r') ∧
      outs.map (fun c => Except.ok (decryptBit c S.sk)) = (resultWords [] ps).map g.accepts := by
  obtain ⟨r, r', outs, h1, h2, h3⟩ := C31_block_noise hS g hg qs B hB hBN hB31 hbud hint cs ps hcs hfirst
  refine ⟨r, r', outs, h1, h2, ?_⟩
  generalize resultWords [] ps = ws at h3
  clear h2
  induction h3 with
  | nil => rfl
  | cons h _ ih =>
    obtain ⟨b, e1, e2⟩ := h
    rw [List.map_cons, List.map_cons, ih, e1, C24_decrypts b _ S.sk (e2.mono (by omega))]

/-- **C30 (no input).** `result()` before any input fails an assertion. -/
theorem C30_block_empty (S : Scheme N n l) (g : Graph) (qs : Nat) (rest : List (Call (Gsw l N))) :
    ∃ r, Block.make g qs false = .ok r ∧
      runCalls (fun r c => Block.evalOne S r c) (fun r => Block.result S r) r (.result :: rest) = .error .assertFail :=
  ⟨_, rfl, rfl⟩

/-! ## Costs -/

/-- The sizes of the blocks a history is evaluated in; `k` inputs are pending. -/
def blockLens {α : Type} (qs : Nat) : Nat → List (Call α) → List Nat
  | _, [] => []
  | k, .feed _ :: cs => if k + 1 < qs then blockLens qs (k + 1) cs else (k + 1) :: blockLens qs 0 cs
  | k, .result :: cs => if k = 0 then blockLens qs 0 cs else k :: blockLens qs 0 cs

/-- The CMUXes of a list of blocks, the first starting at depth `d`, when `sizes` are the numbers of live states at each depth: one per
live state and input of the block, and 2^width - 1 for the selection, `width` being the bit length of the number of live
states at the start of the block (no selection when there is one). -/
def blockCost (sizes : List Nat) : Nat → List Nat → Nat
  | _, [] => 0
  | d, k :: ks => ((List.range k).map fun i => sizes.getD (d + i) 0).sum +
      (if sizes.getD d 0 = 1 then 0 else 2 ^ (Nat.log2 (sizes.getD d 0) + 1) - 1) + blockCost sizes (d + k) ks

theorem lutSamples_count (k : Nat) : Backstream.cmuxCount (lutSamples k) = 2 ^ k - 1 := by
  have : ∀ k, ((List.range k).map fun i => 2 ^ (k - i - 1)).sum = 2 ^ k - 1 := by
    intro k
    induction k with
    | zero => rfl
    | succ k ih =>
      rw [List.range_succ_eq_map, List.map_cons, List.map_map, List.sum_cons]
      have e : (List.range k).map ((fun i => 2 ^ (k + 1 - i - 1)) ∘ Nat.succ) = (List.range k).map fun i => 2 ^ (k - i - 1) := by
        apply List.map_congr_left
        intro i _
        simp only [Function.comp]
        congr 1
        omega
      rw [e, ih]
      have : 0 < 2 ^ k := Nat.pos_of_ne_zero (by simp)
      rw [Nat.pow_succ]
      simp only [Nat.sub_zero, Nat.add_sub_cancel]
      omega
  rw [← this k]
  unfold Backstream.cmuxCount lutSamples
  rw [List.filter_eq_self.2 (by simp), List.map_map]
  rfl

theorem cmuxCount_append (a b : List (Target × Nat)) :
    Backstream.cmuxCount (a ++ b) = Backstream.cmuxCount a + Backstream.cmuxCount b := by
  unfold Backstream.cmuxCount
  rw [List.filter_append, List.map_append, List.sum_append]

theorem blockSamples_count (g : Graph) (L : List Nat) (k : Nat) :
    Backstream.cmuxCount (blockSamples g L k) = ((List.range k).map fun i => (g.levelSet L i).length).sum +
      if L.length = 1 then 0 else 2 ^ (Nat.log2 L.length + 1) - 1 := by
  unfold blockSamples
  rw [cmuxCount_append]
  congr 1
  · unfold Backstream.cmuxCount
    rw [List.filter_eq_self.2 (by simp), List.map_map, List.map_reverse, List.sum_reverse]
    rfl
  · split
    · rfl
    · rw [← lutSamples_count]
      rfl

/-- the part of the state that does not depend on ciphertexts, after `d` processed inputs with `k` pending -/
structure BStr (g : Graph) (qs : Nat) (r : Block N l) (d k : Nat) : Prop where
  graph : r.graph = g
  queueSize : r.queueSize = qs
  queued : r.queued.length = k
  live : r.live = g.levelSet [g.init] d
  sel : d ≠ 0 → r.selector ≠ none

theorem bstr_eval (S : Scheme N n l) {g : Graph} (hg : g.WF) {qs B : Nat} (hB : ∀ d, (g.levelSet [g.init] d).length < 2 ^ B)
    (hBN : B < N) (hB31 : B < 31) {r : Block N l} {d k : Nat} (h : BStr g qs r d k) (hk : k ≠ 0) :
    ∃ r', r.evalQueued S = .ok r' ∧ BStr g qs r' (d + k) 0 ∧ r'.selector ≠ none ∧
      r'.timer = r.timer ++ blockSamples g (g.levelSet [g.init] d) (countDown k) := by
  have hi : ∀ q ∈ [g.init], q < g.size := by intro q hq; simp at hq; subst hq; exact hg.init_lt
  have hbits : ∀ d, Nat.log2 (g.levelSet [g.init] d).length + 1 ≤ B := fun d =>
    log2_lt_of (fun h0 => levelSet_ne_nil hg d (List.eq_nil_of_length_eq_zero h0)) (hB d)
  have hq : r.queued ≠ [] := by
    intro hq
    have := h.queued
    rw [hq] at this
    exact hk this.symm
  have hs : SSorted r.live := by rw [h.live]; exact Graph.sorted_levelSet (by simp) _
  have hlt : ∀ q ∈ r.live, q < r.graph.size := by rw [h.live, h.graph]; exact Graph.levelSet_lt hi _
  have hlog : Nat.log2 r.live.length + 1 ≤ B := by rw [h.live]; exact hbits _
  have hnext : r.graph.levelSet r.live r.queued.length = g.levelSet [g.init] (d + k) := by
    rw [h.graph, h.live, Graph.levelSet_add, h.queued]
  obtain ⟨r', w, h1, h2, h3, h4, h5, h6, h7, _, _⟩ := evalQueued_any S (r := r) (by rw [h.graph]; exact hg) hq hs hlt
    (by
      intro hne
      refine h.sel (fun hd => ?_)
      rw [h.live, hd] at hne
      exact hne rfl)
    (by rw [hnext]; have := hbits (d + k); omega) (fun _ => by omega) (by omega)
  refine ⟨r', h1, ⟨h2.trans h.graph, h3.trans h.queueSize, by rw [h4]; rfl, h5.trans hnext, fun _ => by rw [h6]; simp⟩,
    by rw [h6]; simp, ?_⟩
  rw [h7, h.graph, h.live, h.queued]

theorem bstr_one (S : Scheme N n l) {g : Graph} (hg : g.WF) {q B : Nat} (hB : ∀ d, (g.levelSet [g.init] d).length < 2 ^ B)
    (hBN : B < N) (hB31 : B < 31) {r : Block N l} {d k : Nat} (h : BStr g q r d k) (x : Gsw l N) :
    ∃ r', r.evalOne S x = .ok r' ∧
      ((k + 1 < q ∧ BStr g q r' d (k + 1) ∧ r'.timer = r.timer) ∨
       (¬ k + 1 < q ∧ BStr g q r' (d + (k + 1)) 0 ∧ r'.timer = r.timer ++ blockSamples g (g.levelSet [g.init] d) (countDown (k + 1)))) := by
  have hstr : BStr g q { r with queued := r.queued ++ [x] } d (k + 1) := ⟨h.graph, h.queueSize, by simp [h.queued], h.live, h.sel⟩
  have hone : r.evalOne S x = if k + 1 < q then pure { r with queued := r.queued ++ [x] }
      else Block.evalQueued S { r with queued := r.queued ++ [x] } := by
    have e1 : (r.queued ++ [x]).length = k + 1 := hstr.queued
    unfold Block.evalOne
    dsimp only
    rw [e1]
    simp only [h.queueSize]
  rw [hone]
  by_cases hq : k + 1 < q
  · rw [if_pos hq]
    exact ⟨_, rfl, .inl ⟨hq, hstr, rfl⟩⟩
  · rw [if_neg hq]
    obtain ⟨r', h1, h2, _, h4⟩ := bstr_eval S hg hB hBN hB31 hstr (by omega)
    exact ⟨r', h1, .inr ⟨hq, h2, h4⟩⟩

theorem bstr_result (S : Scheme N n l) {g : Graph} (hg : g.WF) {q B : Nat} (hB : ∀ d, (g.levelSet [g.init] d).length < 2 ^ B)
    (hBN : B < N) (hB31 : B < 31) {r : Block N l} {d k : Nat} (h : BStr g q r d k) (hne : d + k ≠ 0) :
    ∃ c r', r.result S = .ok (c, r') ∧ BStr g q r' (d + k) 0 ∧
      ((k = 0 ∧ r'.timer = r.timer) ∨ (k ≠ 0 ∧ r'.timer = r.timer ++ blockSamples g (g.levelSet [g.init] d) (countDown k))) := by
  by_cases hk : k = 0
  · subst hk
    have hq : r.queued = [] := List.eq_nil_of_length_eq_zero h.queued
    obtain ⟨s, hs⟩ := Option.ne_none_iff_exists'.1 (h.sel (by omega))
    refine ⟨sampleExtract s ⟨0, by omega⟩, r, ?_, h, .inl ⟨rfl, rfl⟩⟩
    unfold Block.result
    rw [evalQueued_empty S hq, Res.bind_ok, hs]
    dsimp only
    rw [sampleExtractAt_ok (by omega)]; rfl
  · obtain ⟨r', h1, h2, h3, h4⟩ := bstr_eval S hg hB hBN hB31 h hk
    obtain ⟨s, hs⟩ := Option.ne_none_iff_exists'.1 h3
    refine ⟨sampleExtract s ⟨0, by omega⟩, r', ?_, h2, .inr ⟨hk, h4⟩⟩
    unfold Block.result
    rw [h1, Res.bind_ok, hs]
    dsimp only
    rw [sampleExtractAt_ok (by omega)]; rfl

/-- **C48 (BLOCK).** Over any history of calls on any ciphertexts that does not start with `result()`, no call fails and the recorded
CMUX count is the sum over the evaluated blocks of the live-set sizes at each depth plus 2^width - 1 per selection. -/
theorem C48_block_cmux (S : Scheme N n l) (g : Graph) (hg : g.WF) (qs B : Nat) (hB : LiveBits g B) (hBN : B < N) (hB31 : B < 31)
    (hint : qs ≤ 2 ^ 31) (cs : List (Call (Gsw l N))) (hfirst : ∀ rest, cs ≠ .result :: rest) :
    ∃ r r' outs depths, Block.make g qs false = .ok r ∧
      runCalls (fun r c => Block.evalOne S r c) (fun r => Block.result S r) r cs = .ok (outs, r') ∧
      g.trackLiveStates [g.initialState] (fedWord cs).length = .ok depths ∧
      Backstream.cmuxCount r'.timer = blockCost (depths.map List.length) 0 (blockLens qs 0 cs) := by
  have hi : ∀ q ∈ [g.init], q < g.size := by intro q hq; simp at hq; subst hq; exact hg.init_lt
  have hlev := hB.level hg
  have key : ∀ (cs : List (Call (Gsw l N))) (r : Block N l) (d k D : Nat), BStr g qs r d k → k + 1 ≤ max 1 qs → (d + k = 0 → ∀ rest, cs ≠ .result :: rest) →
      d + k + (fedWord cs).length ≤ D →
      ∃ r' outs, runCalls (fun r c => Block.evalOne S r c) (fun r => Block.result S r) r cs = .ok (outs, r') ∧
        Backstream.cmuxCount r'.timer = Backstream.cmuxCount r.timer +
          blockCost (((List.range (D + 1)).map (g.levelSet [g.init])).map List.length) d (blockLens qs k cs) := by
    have hcost : ∀ d k D ks, d + k ≤ D →
        blockCost (((List.range (D + 1)).map (g.levelSet [g.init])).map List.length) d (k :: ks) =
          Backstream.cmuxCount (blockSamples g (g.levelSet [g.init] d) k) +
          blockCost (((List.range (D + 1)).map (g.levelSet [g.init])).map List.length) (d + k) ks := by
      intro d k D ks hD
      have hget : ∀ i, i ≤ D → (((List.range (D + 1)).map (g.levelSet [g.init])).map List.length).getD i 0 =
          (g.levelSet [g.init] i).length := by
        intro i hi
        rw [List.getD_eq_getElem?_getD, List.getElem?_eq_getElem (by simp; omega)]
        simp
      rw [blockCost, blockSamples_count, hget d (by omega)]
      congr 3
      apply List.map_congr_left
      intro i hi
      rw [List.mem_range] at hi
      rw [hget _ (by omega), Graph.levelSet_add]
    intro cs
    induction cs with
    | nil => intro r d k D _ _ _ _; exact ⟨r, [], rfl, by simp [blockLens, blockCost]⟩
    | cons c cs ih =>
      intro r d k D h hkq hne hD
      cases c with
      | feed x =>
        have hD' : d + (k + 1) + (fedWord cs).length ≤ D := by
          simp only [fedWord, List.length_cons] at hD; omega
        have hstr : BStr g qs { r with queued := r.queued ++ [x] } d (k + 1) :=
          ⟨h.graph, h.queueSize, by simp [h.queued], h.live, h.sel⟩
        rw [runCalls, blockLens]
        have hone : r.evalOne S x = if k + 1 < qs then pure { r with queued := r.queued ++ [x] }
            else Block.evalQueued S { r with queued := r.queued ++ [x] } := by
          have e1 : (r.queued ++ [x]).length = k + 1 := hstr.queued
          unfold Block.evalOne
          dsimp only
          rw [e1]
          simp only [h.queueSize]
        rw [hone]
        by_cases hq : k + 1 < qs
        · rw [if_pos hq, if_pos hq]
          exact ih _ d (k + 1) D hstr (by omega) (by intro h0; omega) hD'
        · rw [if_neg hq, if_neg hq]
          obtain ⟨r', h1, h2, _, h4⟩ := bstr_eval S hg hlev hBN hB31 hstr (by omega)
          rw [h1, Res.bind_ok]
          obtain ⟨r'', outs, k1, k2⟩ := ih r' (d + (k + 1)) 0 D h2 (by omega) (by intro h0; omega) (by omega)
          refine ⟨r'', outs, k1, ?_⟩
          rw [k2, h4, countDown_eq (by omega), cmuxCount_append, hcost _ _ _ _ (by omega), Nat.add_assoc]
      | result =>
        have hne' : d + k ≠ 0 := fun h0 => hne h0 _ rfl
        rw [runCalls, blockLens]
        simp only [fedWord] at hD
        by_cases hk : k = 0
        · subst hk
          rw [if_pos rfl]
          have hq : r.queued = [] := List.eq_nil_of_length_eq_zero h.queued
          obtain ⟨s, hs⟩ := Option.ne_none_iff_exists'.1 (h.sel (by omega))
          have hres : r.result S = .ok (sampleExtract s ⟨0, by omega⟩, r) := by
            unfold Block.result
            rw [evalQueued_empty S hq, Res.bind_ok, hs]
            dsimp only
            rw [sampleExtractAt_ok (by omega)]; rfl
          rw [hres, Res.bind_ok]
          obtain ⟨r'', outs, k1, k2⟩ := ih r d 0 D h (by omega) (by intro h0; omega) hD
          exact ⟨r'', _ :: outs, by dsimp only; rw [k1]; rfl, k2⟩
        · rw [if_neg hk]
          obtain ⟨r', h1, h2, h3, h4⟩ := bstr_eval S hg hlev hBN hB31 h hk
          obtain ⟨s, hs⟩ := Option.ne_none_iff_exists'.1 h3
          have hres : r.result S = .ok (sampleExtract s ⟨0, by omega⟩, r') := by
            unfold Block.result
            rw [h1, Res.bind_ok, hs]
            dsimp only
            rw [sampleExtractAt_ok (by omega)]; rfl
          rw [hres, Res.bind_ok]
          obtain ⟨r'', outs, k1, k2⟩ := ih r' (d + k) 0 D h2 (by omega) (by intro h0; omega) hD
          refine ⟨r'', _ :: outs, by dsimp only; rw [k1]; rfl, ?_⟩
          rw [k2, h4, countDown_eq (by omega), cmuxCount_append, hcost _ _ _ _ (by omega), Nat.add_assoc]
  obtain ⟨r', outs, h1, h2⟩ := key cs
    { graph := g, queueSize := qs, queued := [], selector := none, live := [g.initialState], ws4 := [], timer := [] } 0 0
    (fedWord cs).length ⟨rfl, rfl, rfl, rfl, fun h => absurd rfl h⟩ (by omega) (fun _ => hfirst) (by omega)
  refine ⟨_, r', outs, _, rfl, h1, Graph.track_ok' hg (by simp) hi _, ?_⟩
  rw [h2]
  exact Nat.zero_add _

/-- The hypotheses are met by a concrete backend, the example graph, queue size 2 and a history with three inputs and two results. -/
example : ∃ (S : Scheme 4 2 1) (δ : Noise) (Enc : Gsw 1 4 → Bool → Prop) (cs : List (Call (Gsw 1 4))),
    S.Sound δ Enc ∧ exGraph.WF ∧ LiveBits exGraph 3 ∧
    List.Forall₂ (Call.Rel Enc) cs [.feed false, .result, .feed true, .feed true, .result] ∧
    (max 1 2 + 3) * δ.cmux + δ.cb < 2 ^ 29 ∧
    (resultWords [] [Call.feed false, .result, .feed true, .feed true, .result]).map exGraph.accepts = [.ok false, .ok true] := by
  have hs := toy_sound (N := 4) (n := 2) (l := 1) ⟨![1, 0, 1, 0], ![1, 0]⟩ (by decide) (by decide)
  exact ⟨_, toyNoise, toyEnc, [.feed (Scheme.encrypt _ 0 false), .result, .feed (Scheme.encrypt _ 0 true),
    .feed (Scheme.encrypt _ 0 true), .result], hs, exGraph_wf, liveBits_of_size exGraph_wf (by decide),
    .cons (.feed (hs.encrypt _ _)) (.cons .result (.cons (.feed (hs.encrypt _ _)) (.cons (.feed (hs.encrypt _ _))
    (.cons .result .nil)))), by decide, by decide⟩

end Homfa
