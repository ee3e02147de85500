import Verif.Spec.BlockNoise
import Verif.Proof.Block
import Verif.Proof.Noise

/-! The BLOCK runner computes `BlockRun`; its error is the sum of the errors on the path. -/

namespace Homfa

variable {N n l : Nat} {S : Scheme N n l}

theorem isLive_levelSet {g : Graph} (hg : g.WF) (k : Nat) : IsLive g.dfa k (g.levelSet [g.init] k) := by
  have hi : ∀ q ∈ [g.init], q < g.size := by intro q hq; simp at hq; subst hq; exact hg.init_lt
  refine ⟨Graph.sorted_levelSet (by simp) k, fun q => ?_⟩
  rw [hg.mem_levelSet hi]
  simp only [List.mem_singleton, exists_eq_left]
  rfl

theorem IsLive.unique {d : Spec.Dfa Nat} {k : Nat} {L L' : List Nat} (h : IsLive d k L) (h' : IsLive d k L') : L = L' :=
  SSorted.ext h.1 h'.1 fun q => (h.2 q).trans (h'.2 q).symm

theorem IsLive.run_mem {d : Spec.Dfa Nat} {L : List Nat} {u : List Bool} (h : IsLive d u.length L) : d.run d.start u ∈ L :=
  (h.2 _).2 ⟨u, rfl, rfl⟩

theorem wInit_eq (g : Graph) (L : List Nat) (q : Nat) : wInit N g L q = trivialTRLWE fun i => blockMsg g.dfa L q i.val := rfl

theorem blockPure_eq (S : Scheme N n l) (g : Graph) (L : List Nat) (cs : List (Gsw l N)) (q : Nat) :
    blockPure S g (wInit N g L) cs q = blockTree S g.dfa L cs q := by
  induction cs generalizing q with
  | nil => rfl
  | cons c cs ih => rw [blockPure, blockTree, ih, ih]; rfl

theorem lutPure_eq (S : Scheme N n l) (cs : List (Gsw l N)) (T : Nat → TRLWE N) : lutPure S cs T = lutTree S cs T := by
  induction cs generalizing T with
  | nil => rfl
  | cons c cs ih =>
    rw [lutPure, lutTree, ih]
    congr 1
    funext j
    rw [Nat.mul_comm]

theorem selectors_eq (S : Scheme N n l) (s : TRLWE N) (k : Nat) (hk : k < N) :
    (List.range k).map (cbAt S s) = selectors S s k hk := by
  apply List.ext_getElem
  · simp [selectors]
  · intro i h1 h2
    simp only [List.length_map, List.length_range] at h1
    simp [selectors, cbAt_eq S s (show i + 1 < N by omega)]

theorem selectors_length (S : Scheme N n l) (s : TRLWE N) (k : Nat) (hk : k < N) : (selectors S s k hk).length = k := by
  simp [selectors]

theorem cmuxErrorAt_eq (i : Fin N) (c : Gsw l N) (b : Bool) (x1 x0 : TRLWE N) :
    (S.cmux c x1 x0).phase S.sk.lvl1 i = (if b then x1 else x0).phase S.sk.lvl1 i + S.cmuxErrorAt i c b x1 x0 := by
  unfold Scheme.cmuxErrorAt; abel

theorem blockTree_phase (d : Spec.Dfa Nat) (L : List Nat) (i : Fin N) (cs : List (Gsw l N)) (bs : List Bool) (hl : cs.length = bs.length)
    (q : Nat) : (blockTree S d L cs q).phase S.sk.lvl1 i = blockMsg d L (bs.foldl d.next q) i.val + (blockErrors S d L i cs bs q).sum := by
  induction cs generalizing bs q with
  | nil =>
    cases bs with
    | cons => cases hl
    | nil => unfold blockTree blockErrors; rw [phase_trivial]; simp
  | cons c cs ih =>
    cases bs with
    | nil => cases hl
    | cons b bs =>
      have hl : cs.length = bs.length := by simpa using hl
      rw [blockTree, cmuxErrorAt_eq i c b, blockErrors, List.sum_cons, List.foldl_cons]
      have hsel : (if b = true then blockTree S d L cs (d.next q true) else blockTree S d L cs (d.next q false)) =
          blockTree S d L cs (d.next q b) := by cases b <;> rfl
      rw [hsel, ih bs hl]
      abel

theorem lutTree_phase (i : Fin N) (cs : List (Gsw l N)) (bs : List Bool) (hl : cs.length = bs.length) (T : Nat → TRLWE N) :
    (lutTree S cs T).phase S.sk.lvl1 i = (T (lsbIndex bs)).phase S.sk.lvl1 i + (lutErrors S i cs bs T).sum := by
  induction cs generalizing bs T with
  | nil =>
    cases bs with
    | cons => cases hl
    | nil => unfold lutTree lutErrors lsbIndex; simp
  | cons c cs ih =>
    cases bs with
    | nil => cases hl
    | cons b bs =>
      have hl : cs.length = bs.length := by simpa using hl
      rw [lutTree, ih bs hl, cmuxErrorAt_eq i c b, lutErrors, List.sum_cons]
      have hsel : (if b then T (2 * lsbIndex bs + 1) else T (2 * lsbIndex bs)) = T (lsbIndex (b :: bs)) := by
        cases b
        · simp [lsbIndex]
        · simp [lsbIndex, Nat.add_comm]
      rw [hsel]
      abel

theorem blockErrors_length (d : Spec.Dfa Nat) (L : List Nat) (i : Fin N) (cs : List (Gsw l N)) (bs : List Bool) (q : Nat) :
    (blockErrors S d L i cs bs q).length ≤ bs.length := by
  induction cs generalizing bs q with
  | nil => simp [blockErrors]
  | cons c cs ih =>
    cases bs with
    | nil => simp [blockErrors]
    | cons b bs => simp only [blockErrors, List.length_cons]; exact Nat.succ_le_succ (ih _ _)

theorem lutErrors_length (i : Fin N) (cs : List (Gsw l N)) (bs : List Bool) (T : Nat → TRLWE N) :
    (lutErrors S i cs bs T).length ≤ bs.length := by
  induction cs generalizing bs T with
  | nil => simp [lutErrors]
  | cons c cs ih =>
    cases bs with
    | nil => simp [lutErrors]
    | cons b bs => simp only [lutErrors, List.length_cons]; exact Nat.succ_le_succ (ih _ _)

theorem Scheme.CbSound.eighth {margin : Nat} {Enc : Gsw l N → Bool → Prop} (hS : S.CbSound margin Enc) {c : TLWE N} {b : Bool} {e : Nat}
    (h : Near e (c.phase S.sk.lvl1) (eighth b)) (he : e + margin < 2 ^ 29) : Enc (S.cb c) b := by
  cases b
  · have := toInt_neg_of_near (m := 2 ^ 29) (by decide) h (by omega) (by omega)
    exact hS.neg c (by omega) (by omega)
  · have := toInt_pos_of_near (m := 2 ^ 29) (by decide) h (by omega) (by omega)
    exact hS.pos c (by omega) (by omega)

/-- the phase of the result of a block -/
theorem BlockStep.phase {d : Spec.Dfa Nat} {u : List Bool} {cv : List (Gsw l N)} {v : List Bool} {s : Option (TRLWE N)} {w : TRLWE N}
    {es : Fin N → List Torus} (h : BlockStep S d u cv v s w es) (hl : cv.length = v.length) {L : List Nat}
    (hL : IsLive d (u.length + v.length) L) (i : Fin N) :
    w.phase S.sk.lvl1 i = blockMsg d L (d.run d.start (u ++ v)) i.val + (es i).sum := by
  have hrun : d.run d.start (u ++ v) = v.foldl d.next (d.run d.start u) := List.foldl_append
  rw [hrun]
  cases h with
  | single hone hL' =>
    rw [hL.unique hL']
    exact blockTree_phase _ _ i cv v hl _
  | @many L0 L' s T h0 hmany hL' hk hT =>
    rw [hL.unique hL']
    have hidx : L0.idxOf (d.run d.start u) < L0.length := List.idxOf_lt_length_iff.2 h0.run_mem
    rw [lutTree_phase i _ ((List.range (Nat.log2 L0.length + 1)).map (L0.idxOf (d.run d.start u)).testBit) (by simp [selectors_length]) T,
      lsbIndex_testBit _ _ (Nat.lt_trans hidx Nat.lt_log2_self), hT _ hidx, List.getElem_idxOf, blockTree_phase _ _ i cv v hl,
      List.sum_append]
    abel

/-- The runner has processed `u` and holds `v` in its queue. -/
structure BXInv (S : Scheme N n l) (g : Graph) (qs M : Nat) (r : Block N l) (cu : List (Gsw l N)) (u : List Bool) (v : List Bool) :
    Prop where
  graph : r.graph = g
  queueSize : r.queueSize = qs
  queued : r.queued.length = v.length
  live : r.live = g.levelSet [g.init] u.length
  run : ∃ es, BlockRun S g.dfa cu u r.selector es ∧ ∀ i, (es i).length ≤ M

theorem bxinv_make {g : Graph} (qs M : Nat) : ∃ r : Block N l, Block.make g qs false = .ok r ∧ r.queued = [] ∧ BXInv S g qs M r [] [] [] :=
  ⟨_, rfl, rfl, rfl, rfl, rfl, rfl, _, .start, by simp⟩

theorem BlockRun.sel_some {d : Spec.Dfa Nat} {cu : List (Gsw l N)} {u : List Bool} {s : Option (TRLWE N)} {es : Fin N → List Torus}
    (h : BlockRun S d cu u s es) (hu : u ≠ []) : s ≠ none := by
  cases h with
  | start => exact absurd rfl hu
  | block => simp

theorem bxinv_eval {g : Graph} (hg : g.WF) {qs B : Nat} (hB : ∀ d, (g.levelSet [g.init] d).length < 2 ^ B)
    (hBN : B < N) (hB31 : B < 31) {r : Block N l} {cu : List (Gsw l N)} {u v : List Bool}
    (h : BXInv S g qs (max 1 qs + B) r cu u v) (hint : qs ≤ 2 ^ 31) (hv : v.length ≤ max 1 qs) :
    ∃ r', r.evalQueued S = .ok r' ∧ r'.queued = [] ∧ BXInv S g qs (max 1 qs + B) r' (cu ++ r.queued) (u ++ v) [] := by
  by_cases hv0 : v = []
  · subst hv0
    have hq : r.queued = [] := List.eq_nil_of_length_eq_zero h.queued
    rw [List.append_nil, hq, List.append_nil]
    exact ⟨r, evalQueued_empty S hq, hq, h⟩
  · have hlen := h.queued
    have hq : r.queued ≠ [] := by
      intro hq; rw [hq] at hlen; exact hv0 (List.eq_nil_of_length_eq_zero hlen.symm)
    have hi : ∀ q ∈ [g.init], q < g.size := by intro q hq; simp at hq; subst hq; exact hg.init_lt
    have hs : SSorted r.live := by rw [h.live]; exact Graph.sorted_levelSet (by simp) _
    have hlt : ∀ q ∈ r.live, q < r.graph.size := by rw [h.live, h.graph]; exact Graph.levelSet_lt hi _
    have hbits : ∀ d, Nat.log2 (g.levelSet [g.init] d).length + 1 ≤ B := fun d =>
      log2_lt_of (fun h0 => levelSet_ne_nil hg d (List.eq_nil_of_length_eq_zero h0)) (hB d)
    have hlog : Nat.log2 r.live.length + 1 ≤ B := by rw [h.live]; exact hbits _
    have hnext : r.graph.levelSet r.live r.queued.length = g.levelSet [g.init] (u ++ v).length := by
      rw [h.graph, h.live, Graph.levelSet_add, hlen, List.length_append]
    obtain ⟨es0, hrun, _⟩ := h.run
    obtain ⟨r', w, h1, h2, h3, h4, h5, h6, _, h8, h9⟩ := evalQueued_ok S (r := r) (by rw [h.graph]; exact hg) hq (by omega) hs hlt
      (by
        intro hne
        refine hrun.sel_some (fun hu => ?_)
        rw [h.live, hu] at hne
        exact hne rfl)
      (by rw [hnext]; have := hbits (u ++ v).length; omega) (fun _ => by omega) (by omega)
    have hlive0 : IsLive g.dfa u.length r.live := by rw [h.live]; exact isLive_levelSet hg _
    have hlive1 : IsLive g.dfa (u.length + v.length) r'.live := by
      rw [h5, hnext, List.length_append]; exact isLive_levelSet hg _
    have hstep : ∃ es, BlockStep S g.dfa u r.queued v r.selector w es ∧ ∀ i, (es i).length ≤ max 1 qs + B := by
      by_cases hl : r.live.length = 1
      · have e := h8 hl _ hlive0.run_mem
        rw [h.graph, blockPure_eq] at e
        subst e
        have hone : r.live = [g.dfa.run g.dfa.start u] := by
          obtain ⟨x, hx⟩ := List.length_eq_one_iff.1 hl
          have := hlive0.run_mem
          rw [hx] at this ⊢
          simp only [List.mem_singleton] at this
          rw [this]
        refine ⟨_, .single (by rw [← hone]; exact hlive0) hlive1, fun i => ?_⟩
        have := blockErrors_length (S := S) g.dfa r'.live i r.queued v (g.dfa.run g.dfa.start u)
        omega
      · obtain ⟨s, T, e1, e2, e3⟩ := h9 hl
        have hk : Nat.log2 r.live.length + 1 < N := by omega
        rw [selectors_eq S s _ hk, lutPure_eq] at e3
        subst e3
        rw [e1]
        refine ⟨_, .many hlive0 hl hlive1 hk (fun j hj => ?_), fun i => ?_⟩
        · rw [e2 j hj, h.graph, blockPure_eq]
        · have a := blockErrors_length (S := S) g.dfa r'.live i r.queued v (g.dfa.run g.dfa.start u)
          have b := lutErrors_length (S := S) i (selectors S s (Nat.log2 r.live.length + 1) hk)
            ((List.range (Nat.log2 r.live.length + 1)).map (r.live.idxOf (g.dfa.run g.dfa.start u)).testBit) T
          rw [List.length_append]
          rw [List.length_map, List.length_range] at b
          omega
    obtain ⟨es, hst, hes⟩ := hstep
    refine ⟨r', h1, h4, h2.trans h.graph, h3.trans h.queueSize, by rw [h4]; rfl, h5.trans hnext, es, ?_, hes⟩
    rw [h6]
    exact .block hrun hv0 hlen hst

theorem bxinv_one {g : Graph} (hg : g.WF) {qs B : Nat} (hB : ∀ d, (g.levelSet [g.init] d).length < 2 ^ B)
    (hBN : B < N) (hB31 : B < 31) {r : Block N l} {cu : List (Gsw l N)} {u v : List Bool}
    (h : BXInv S g qs (max 1 qs + B) r cu u v) (hint : qs ≤ 2 ^ 31) (hv : v.length + 1 ≤ max 1 qs) (c : Gsw l N) (b : Bool) :
    ∃ r' cu' u' v', r.evalOne S c = .ok r' ∧ BXInv S g qs (max 1 qs + B) r' cu' u' v' ∧ cu' ++ r'.queued = cu ++ r.queued ++ [c] ∧
      u' ++ v' = u ++ v ++ [b] ∧ v'.length + 1 ≤ max 1 qs := by
  unfold Block.evalOne
  dsimp only
  have hinv : BXInv S g qs (max 1 qs + B) { r with queued := r.queued ++ [c] } cu u (v ++ [b]) :=
    ⟨h.graph, h.queueSize, by simp [h.queued], h.live, h.run⟩
  by_cases hlt : (r.queued ++ [c]).length < r.queueSize
  · rw [if_pos hlt]
    refine ⟨_, cu, u, v ++ [b], rfl, hinv, by simp, by simp, ?_⟩
    rw [List.length_append, h.queued, h.queueSize] at hlt
    simp only [List.length_append, List.length_singleton] at hlt ⊢
    omega
  · rw [if_neg hlt]
    obtain ⟨r', h1, h2, h3⟩ := bxinv_eval hg hB hBN hB31 hinv hint (by simpa using hv)
    exact ⟨r', _, _, [], h1, h3, by rw [h2]; simp, by simp, by simp⟩

end Homfa
