import Verif.Model.Block
import Verif.Proof.Lut

/-! The BLOCK runner: what one evaluation of the queue computes, exactly. -/

namespace Homfa

variable {N n l : Nat}

namespace Graph
variable {g : Graph}

theorem levelSet_add (L : List Nat) (a b : Nat) : g.levelSet (g.levelSet L a) b = g.levelSet L (a + b) := by
  induction b with
  | zero => rfl
  | succ b ih => rw [levelSet, ih]; rfl

theorem sinsertAll_sorted {L : List Nat} (h : SSorted L) : sinsertAll [] L = L :=
  (sorted_sinsertAll (by simp)).ext h (by intro x; simp)

theorem WF.step_levelSet (hg : g.WF) {L : List Nat} (hL : ∀ q ∈ L, q < g.size) {d q : Nat} (hq : q ∈ g.levelSet L d) (b : Bool) :
    g.nx q b ∈ g.levelSet L (d + 1) := by
  rw [levelSet, hg.mem_nextSet (levelSet_lt hL d)]
  exact ⟨q, hq, b, rfl⟩

theorem WF.run_mem_levelSet (hg : g.WF) {L : List Nat} (hL : ∀ q ∈ L, q < g.size) {q : Nat} (hq : q ∈ L) (w : List Bool) :
    w.foldl g.nx q ∈ g.levelSet L w.length := (hg.mem_levelSet hL).2 ⟨q, hq, w, rfl, rfl⟩

theorem track_ok' (hg : g.WF) {L : List Nat} (hs : SSorted L) (hL : ∀ q ∈ L, q < g.size) (D : Nat) :
    g.trackLiveStates L D = .ok ((List.range (D + 1)).map (g.levelSet L)) := by
  rw [trackLiveStates_ok hg hL, sinsertAll_sorted hs, List.range_succ_eq_map, List.map_cons, List.map_map]
  rfl

end Graph

/-! ## The initial weights -/

/-- coefficients of a weight: coefficient 0 is the final bit, the next `width` ones are the bits of `t` -/
def bw (N : Nat) (f : Bool) (t width : Nat) : Poly N :=
  fun i => if i.val = 0 then half f else if i.val ≤ width then eighth (t.testBit (i.val - 1)) else 0#32

theorem setB_trivial (p : Poly N) {i : Nat} (x : Torus) (h : i < N) :
    setB (trivialTRLWE p) i x = .ok (trivialTRLWE fun j => if j.val = i then x else p j) := by
  unfold setB
  rw [if_pos h]; rfl

theorem shift_bit (t i : Nat) : ((t >>> i) &&& 1 = 0) ↔ t.testBit i = false := by
  rw [Nat.testBit, Nat.and_comm]
  simp

theorem blockWeight_ok (f : Bool) (t width : Nat) (h : width < N) :
    blockWeight (trivialTRLWEZero N) f t width = .ok (trivialTRLWE (bw N f t width)) := by
  unfold blockWeight
  have h0 : setB (trivialTRLWEZero N) 0 (if f then mu2 else 0#32) = .ok (trivialTRLWE (bw N f t 0)) := by
    show setB (trivialTRLWE fun _ => 0#32) 0 _ = _
    rw [setB_trivial _ _ (by omega)]
    congr 2
    funext j
    unfold bw half
    by_cases hj : j.val = 0
    · rw [if_pos hj, if_pos hj]
    · rw [if_neg hj, if_neg hj, if_neg (by omega)]
  rw [h0, Res.bind_ok]
  obtain ⟨w, h1, h2⟩ := foldlM_range_inv (fun k (w : TRLWE N) => w = trivialTRLWE (bw N f t k))
    (f := fun w i => if (t >>> i) &&& 1 = 0 then setB w (i + 1) (-mu8) else setB w (i + 1) mu8) width
    (b := trivialTRLWE (bw N f t 0)) rfl (by
      rintro i w hi rfl
      refine ⟨_, ?_, rfl⟩
      have e1 : (if (t >>> i) &&& 1 = 0 then setB (trivialTRLWE (bw N f t i)) (i + 1) (-mu8)
          else setB (trivialTRLWE (bw N f t i)) (i + 1) mu8) = setB (trivialTRLWE (bw N f t i)) (i + 1) (eighth (t.testBit i)) := by
        by_cases hb : (t >>> i) &&& 1 = 0
        · rw [if_pos hb, (shift_bit t i).1 hb]; rfl
        · rw [if_neg hb]
          have : t.testBit i = true := by
            cases hh : t.testBit i
            · exact absurd ((shift_bit t i).2 hh) hb
            · rfl
          rw [this]; rfl
      rw [e1, setB_trivial _ _ (by omega)]
      congr 2
      funext j
      unfold bw
      by_cases hj : j.val = i + 1
      · rw [if_pos hj, if_neg (by omega), if_pos (by omega), hj, Nat.add_sub_cancel]
      · rw [if_neg hj]
        by_cases hj0 : j.val = 0
        · rw [if_pos hj0, if_pos hj0]
        · rw [if_neg hj0, if_neg hj0]
          by_cases hji : j.val ≤ i
          · rw [if_pos hji, if_pos (by omega)]
          · rw [if_neg hji, if_neg (by omega)])
  rw [h1, h2]

/-- the initial weight of state `q` -/
def wInit (N : Nat) (g : Graph) (next : List Nat) (q : Nat) : TRLWE N :=
  trivialTRLWE (bw N (g.fin q) (next.idxOf q) (Nat.log2 next.length + 1))

/-- the weight of any state after the initialization -/
def wFirst (N : Nat) (g : Graph) (next : List Nat) (q : Nat) : TRLWE N := if q ∈ next then wInit N g next q else trivialTRLWEZero N

theorem blockInit_ok {g : Graph} (hg : g.WF) {next : List Nat} (hnd : next.Nodup) (hlt : ∀ q ∈ next, q < g.size)
    (hN : Nat.log2 next.length + 1 < N) :
    ∃ weight, blockInit (N := N) g next = .ok weight ∧ weight.length = g.size ∧
      ∀ q < g.size, weight[q]? = some (wFirst N g next q) := by
  unfold blockInit
  obtain ⟨idx, h1, h2, h3⟩ := foldlM_range_inv (fun k (v : List (Option Nat)) => v.length = g.size ∧
      ∀ j (h : j < next.length), j < k → v[next[j]]? = some (some j))
    (f := fun (v : List (Option Nat)) i => do
      let q ← vat next i
      vset v q (some i)) next.length (b := List.replicate g.size none) ⟨by simp, by intro j _ h; omega⟩ (by
      rintro i v hi ⟨e1, e2⟩
      rw [vat_lt hi, Res.bind_ok, vset_lt (by rw [e1]; exact hlt _ (List.getElem_mem _))]
      refine ⟨_, rfl, by rw [List.length_set, e1], ?_⟩
      intro j hj hji
      by_cases h : j = i
      · subst h
        rw [List.getElem?_set_self (by rw [e1]; exact hlt _ (List.getElem_mem _))]
      · rw [List.getElem?_set_ne]
        · exact e2 j hj (by omega)
        · intro he
          exact h ((List.Nodup.getElem_inj_iff hnd).1 he).symm)
  rw [h1, Res.bind_ok]
  dsimp only
  obtain ⟨w, k1, k2, k3, k4⟩ := foldlM_inv (fun (pre : List Nat) (w : List (TRLWE N)) => w.length = g.size ∧
      (∀ q ∈ pre, w[q]? = some (wInit N g next q)) ∧ ∀ q < g.size, q ∉ pre → w[q]? = some (trivialTRLWEZero N))
    (f := fun (weight : List (TRLWE N)) q => do
      let f ← g.isFinalState q
      let w ← vat weight q
      let t ← vat idx q
      let w ← (match t with
        | some t => blockWeight w f t (Nat.log2 next.length + 1)
        | none => .error .ub : Res (TRLWE N))
      vset weight q w) next (b := List.replicate g.size (trivialTRLWEZero N))
    ⟨by simp, by simp, by intro q hq _; rw [List.getElem?_replicate, if_pos hq]⟩ (by
      rintro pre q post w hd ⟨e1, e2, e3⟩
      have hq : q ∈ next := by rw [hd]; simp
      have hqs := hlt q hq
      have hnot : q ∉ pre := by
        intro hc
        rw [hd] at hnd
        exact (List.nodup_append.1 hnd).2.2 q hc q (by simp) rfl
      have hi : next.idxOf q < next.length := List.idxOf_lt_length_iff.2 hq
      have hidx := h3 (next.idxOf q) hi hi
      rw [List.getElem_idxOf] at hidx
      rw [hg.isFinalState_ok hqs, Res.bind_ok, vat_eq_ok.2 (e3 q hqs hnot), Res.bind_ok, vat_eq_ok.2 hidx, Res.bind_ok]
      dsimp only
      rw [blockWeight_ok _ _ _ hN, Res.bind_ok, vset_lt (by omega)]
      refine ⟨_, rfl, by rw [List.length_set, e1], ?_, ?_⟩
      · intro p hp
        by_cases hpq : q = p
        · subst hpq
          rw [List.getElem?_set_self (by omega)]; rfl
        · rw [List.getElem?_set_ne hpq]
          refine e2 p ?_
          rcases List.mem_append.1 hp with h | h
          · exact h
          · simp at h; exact absurd h.symm hpq
      · intro p hp hpn
        rw [List.getElem?_set_ne (by rintro rfl; exact hpn (by simp))]
        exact e3 p hp (fun h => hpn (by simp [h])))
  refine ⟨w, k1, k2, fun q hq => ?_⟩
  unfold wFirst
  split
  · rename_i h; exact k3 q h
  · rename_i h; exact k4 q hq h

/-! ## Propagation -/

/-- The weight of state `q` after propagating back over `cs`. -/
def blockPure (S : Scheme N n l) (g : Graph) (T : Nat → TRLWE N) : List (Gsw l N) → Nat → TRLWE N
  | [], q => T q
  | c :: cs, q => S.cmux c (blockPure S g T cs (g.nx q true)) (blockPure S g T cs (g.nx q false))

theorem blockPropagate_ok (S : Scheme N n l) {g : Graph} (hg : g.WF) (queued : List (Gsw l N)) {L : List Nat}
    (hs : SSorted L) (hL : ∀ q ∈ L, q < g.size) (T : Nat → TRLWE N) (rest : List (Gsw l N)) (k : Nat) (hk : k ≤ queued.length)
    (weight out : List (TRLWE N)) (timer : List (Target × Nat)) (hw : weight.length = g.size) (ho : out.length = g.size)
    (hT : ∀ q ∈ g.levelSet L k, weight[q]? = some (blockPure S g T rest q)) :
    ∃ weight' out', blockPropagate S g queued ((List.range (queued.length + 1)).map (g.levelSet L)) k weight out timer =
        .ok (weight', out', timer ++ (List.range k).reverse.map fun i => (Target.cmux, (g.levelSet L i).length)) ∧
      weight'.length = g.size ∧ out'.length = g.size ∧
      ∀ q ∈ L, weight'[q]? = some (blockPure S g T (queued.take k ++ rest) q) := by
  induction k generalizing weight out timer rest with
  | zero => exact ⟨weight, out, by simp [blockPropagate], hw, ho, by
      intro q hq; exact hT q hq⟩
  | succ i ih =>
    rw [blockPropagate, vat_map (by omega), Res.bind_ok]
    have hi : i < queued.length := by omega
    obtain ⟨w', e1, e2, e3, e4⟩ := parFor_write (task := blockTask S g queued i) (rest := [weight])
      (P := fun q x => x = blockPure S g T (queued[i] :: rest) q) (w0 := out) (g.levelSet L i)
      (Graph.sorted_levelSet hs i).nodup (by
        intro q hq w hwl _
        have hq' := Graph.levelSet_lt hL i q hq
        refine ⟨_, rfl, ?_⟩
        unfold blockTask
        rw [Prog.run_local _ (Graph.WF.nextState_ok hq' false), Prog.run_local _ (Graph.WF.nextState_ok hq' true),
          Prog.run_read1 (hT _ (hg.step_levelSet hL hq false)), Prog.run_read1 (hT _ (hg.step_levelSet hL hq true)),
          Prog.run_local _ (vat_lt hi), Prog.run_write0 (by omega)]
        rfl) (by rw [ho]; exact Graph.levelSet_lt hL i)
    rw [e1, Res.bind_ok]
    obtain ⟨w2, o2, f1, f2, f3, f4⟩ := ih (queued[i] :: rest) (by omega) w' weight (timer ++ [(Target.cmux, (g.levelSet L i).length)])
      (by omega) hw (by
        intro q hq
        obtain ⟨x, hx, rfl⟩ := e3 q hq
        exact hx)
    refine ⟨w2, o2, ?_, f2, f3, by rw [List.take_succ_eq_append_getElem hi, List.append_assoc]; exact f4⟩
    show blockPropagate S g queued _ i w' weight _ = _
    rw [f1, List.range_succ, List.reverse_append, List.map_append, List.append_assoc]
    rfl

/-! ## One evaluation of the queue -/

/-- the samples recorded by one evaluation of a queue of `k` inputs from the live set `L` -/
def blockSamples (g : Graph) (L : List Nat) (k : Nat) : List (Target × Nat) :=
  ((List.range k).reverse.map fun i => (Target.cmux, (g.levelSet L i).length)) ++
    if L.length = 1 then [] else
      (Target.circuitBootstrapping, Nat.log2 L.length + 1) :: lutSamples (Nat.log2 L.length + 1)

theorem evalQueued_empty (S : Scheme N n l) {r : Block N l} (h : r.queued = []) : r.evalQueued S = .ok r := by
  unfold Block.evalQueued
  rw [h]; rfl

/-- circuit bootstrapping of coefficient `i + 1` -/
def cbAt (S : Scheme N n l) (s : TRLWE N) (i : Nat) : Gsw l N :=
  if h : i + 1 < N then S.cb (sampleExtract s ⟨i + 1, h⟩) else fun _ _ _ => 0#64

theorem cbAt_eq (S : Scheme N n l) (s : TRLWE N) {i : Nat} (h : i + 1 < N) : cbAt S s i = S.cb (sampleExtract s ⟨i + 1, h⟩) :=
  dif_pos h

theorem countDown_le {k : Nat} (h : k ≠ 0) : countDown k ≤ k := by
  unfold countDown
  have := narrow_le (x := (k : Int) - 1) (by omega)
  omega

theorem countDown_eq {k : Nat} (h : k ≤ 2 ^ 31) : countDown k = k := by
  unfold countDown
  rw [narrow_eq (by omega) (by omega)]
  omega

/-- One evaluation of a queue of any length. -/
theorem evalQueued_any (S : Scheme N n l) {r : Block N l} (hg : r.graph.WF) (hq : r.queued ≠ []) (hs : SSorted r.live)
    (hlt : ∀ q ∈ r.live, q < r.graph.size)
    (hsel : r.live.length ≠ 1 → r.selector ≠ none)
    (hN1 : Nat.log2 (r.graph.levelSet r.live r.queued.length).length + 1 < N)
    (hN2 : r.live.length ≠ 1 → Nat.log2 r.live.length + 1 < N) (h31 : Nat.log2 r.live.length + 1 < 31) :
    ∃ r' w, r.evalQueued S = .ok r' ∧ r'.graph = r.graph ∧ r'.queueSize = r.queueSize ∧ r'.queued = [] ∧
      r'.live = r.graph.levelSet r.live r.queued.length ∧ r'.selector = some w ∧
      r'.timer = r.timer ++ blockSamples r.graph r.live (countDown r.queued.length) ∧
      (r.live.length = 1 → ∀ q ∈ r.live, w = blockPure S r.graph (wFirst N r.graph r'.live) (r.queued.take (countDown r.queued.length)) q) ∧
      (r.live.length ≠ 1 → ∃ s T, r.selector = some s ∧
        (∀ j (h : j < r.live.length), T j = blockPure S r.graph (wFirst N r.graph r'.live) (r.queued.take (countDown r.queued.length)) r.live[j]) ∧
        w = lutPure S ((List.range (Nat.log2 r.live.length + 1)).map (cbAt S s)) T) := by
  have hq0 : r.queued.length ≠ 0 := fun h => hq (List.eq_nil_of_length_eq_zero h)
  unfold Block.evalQueued
  dsimp only
  rw [if_neg hq0, Graph.track_ok' hg hs hlt, Res.bind_ok]
  have hlast : ((List.range (r.queued.length + 1)).map (r.graph.levelSet r.live)).getLastD [] =
      r.graph.levelSet r.live r.queued.length := by
    rw [List.range_succ, List.map_append]; simp
  rw [hlast]
  have hnlt := Graph.levelSet_lt hlt r.queued.length
  obtain ⟨weight, b1, b2, b3⟩ := blockInit_ok hg (Graph.sorted_levelSet hs r.queued.length).nodup hnlt hN1
  rw [b1, Res.bind_ok]
  obtain ⟨w', o', p1, p2, p3, p4⟩ := blockPropagate_ok S hg r.queued hs hlt
    (wFirst N r.graph (r.graph.levelSet r.live r.queued.length)) [] (countDown r.queued.length) (countDown_le hq0) weight
    (List.replicate r.graph.size (trivialTRLWEZero N)) r.timer b2 (by simp) (by
      intro q hq
      exact b3 q (Graph.levelSet_lt hlt _ q hq))
  rw [List.append_nil] at p4
  rw [p1, Res.bind_ok]
  dsimp only
  unfold blockSamples
  by_cases h1 : r.live.length = 1
  · rw [if_pos h1]
    have h0 : 0 < r.live.length := by omega
    rw [vat_lt h0, Res.bind_ok, vat_eq_ok.2 (p4 _ (List.getElem_mem h0)), Res.bind_ok]
    refine ⟨_, _, rfl, rfl, rfl, rfl, rfl, rfl, ?_, ?_, fun h => absurd h1 h⟩
    · rw [if_pos h1, List.append_nil]
    · intro _ q hq
      obtain ⟨x, hx⟩ := List.length_eq_one_iff.1 h1
      rw [hx] at hq
      simp only [List.mem_singleton] at hq
      subst hq
      simp only [hx, List.getElem_singleton]
  · rw [if_neg h1]
    obtain ⟨s, hsome⟩ : ∃ s, r.selector = some s := Option.ne_none_iff_exists'.1 (hsel h1)
    have hN2 := hN2 h1
    rw [hsome]
    dsimp only
    rw [Res.bind_ok]
    generalize hwd : Nat.log2 r.live.length + 1 = width at *
    have hll : r.live.length < 2 ^ width := by rw [← hwd]; exact Nat.lt_log2_self
    obtain ⟨ws4, q1, q2, q3, q4⟩ := parFor_write (task := extractTask s) (rest := [])
      (P := fun i x => ∀ h : i + 1 < N, x = sampleExtract s ⟨i + 1, h⟩)
      (w0 := vresize r.ws4 width ⟨fun _ => 0#32, 0#32⟩) (List.range width) List.nodup_range (by
        intro i hi w hw _
        rw [List.mem_range] at hi
        rw [vresize_length] at hw
        refine ⟨sampleExtract s ⟨i + 1, by omega⟩, fun _ => rfl, ?_⟩
        unfold extractTask
        rw [Prog.run_local _ (sampleExtractAt_ok (by omega)), Prog.run_write0 (by omega)]) (by
        intro i hi; rw [vresize_length]; exact List.mem_range.1 hi)
    rw [q1, Res.bind_ok]
    show ∃ r' w, (parFor ((List.range width).map (cbTask S ws4)) _ >>= _) = _ ∧ _
    obtain ⟨cond, c1, c2, c3, c4⟩ := parFor_write (task := cbTask S ws4) (rest := [])
      (P := fun i x => ∀ h : i + 1 < N, x = S.cb (sampleExtract s ⟨i + 1, h⟩))
      (w0 := List.replicate width (fun _ _ _ => 0#64)) (List.range width) List.nodup_range (by
        intro i hi w hw _
        have hw : w.length = width := hw.trans List.length_replicate
        obtain ⟨x, hx1, hx2⟩ := q3 i hi
        rw [List.mem_range] at hi
        refine ⟨S.cb x, fun h => by rw [hx2 h], ?_⟩
        unfold cbTask
        rw [Prog.run_local _ (vat_eq_ok.2 hx1), Prog.run_write0 (by omega)]) (by
        intro i hi; exact Nat.lt_of_lt_of_eq (List.mem_range.1 hi) List.length_replicate.symm)
    rw [c1, Res.bind_ok]
    rw [show one [cond] = .ok cond from rfl, Res.bind_ok]
    have hlsz : r.live.length ≤ r.graph.size := by
      have := List.Nodup.length_le_of_subset (l₁ := r.live) (l₂ := List.range r.graph.size) hs.nodup
        (fun q hq => List.mem_range.2 (hlt q hq))
      simpa using this
    obtain ⟨o2, d1, d2, d3⟩ := foldlM_range_inv (fun k (o : List (TRLWE N)) => o.length = r.graph.size ∧
        ∀ j (h : j < r.live.length), j < k → o[j]? =
          some (blockPure S r.graph (wFirst N r.graph (r.graph.levelSet r.live r.queued.length))
            (r.queued.take (countDown r.queued.length)) r.live[j]))
      (f := fun (out : List (TRLWE N)) i => do
          let q ← vat r.live i
          let w ← vat w' q
          vset out i w) r.live.length (b := o') ⟨p3, by intro j _ h; omega⟩ (by
        rintro i o hi ⟨e1, e2⟩
        rw [vat_lt hi, Res.bind_ok, vat_eq_ok.2 (p4 _ (List.getElem_mem hi)), Res.bind_ok, vset_lt (by omega)]
        refine ⟨_, rfl, by rw [List.length_set, e1], ?_⟩
        intro j hj hji
        by_cases h : i = j
        · subst h; rw [List.getElem?_set_self (by omega)]
        · rw [List.getElem?_set_ne h]; exact e2 j hj (by omega))
    rw [d1, Res.bind_ok, shl1_ok h31, Res.bind_ok]
    have hclen : cond.length = width := c2.trans List.length_replicate
    obtain ⟨t1, t2, f1, f2⟩ := lookupTableTimer_ok S (vresize o2 (2 ^ width) (trivialTRLWEZero N)) cond
      (vresize w' (2 ^ width) (trivialTRLWEZero N))
      ((r.timer ++ (List.range (countDown r.queued.length)).reverse.map fun i => (Target.cmux, (r.graph.levelSet r.live i).length)) ++
        [(Target.circuitBootstrapping, width)]) (trivialTRLWEZero N) (by omega) (by rw [vresize_length, hclen])
    rw [f1, Res.bind_ok, vat_eq_ok.2 f2, Res.bind_ok]
    refine ⟨_, _, rfl, rfl, rfl, rfl, rfl, rfl, ?_, fun h => absurd h h1, ?_⟩
    · rw [if_neg h1, hclen]
      simp only [List.append_assoc, List.singleton_append]
    · intro _
      refine ⟨s, fun j => (vresize o2 (2 ^ width) (trivialTRLWEZero N)).getD j (trivialTRLWEZero N), rfl, ?_, ?_⟩
      · intro j hj
        show List.getD _ j _ = _
        have : (vresize o2 (2 ^ width) (trivialTRLWEZero N))[j]? = some (blockPure S r.graph
            (wFirst N r.graph (r.graph.levelSet r.live r.queued.length))
            (r.queued.take (countDown r.queued.length)) r.live[j]) := by
          unfold vresize
          rw [List.getElem?_append_left (by rw [List.length_take]; omega), List.getElem?_take, if_pos (by omega)]
          exact d3 j hj hj
        rw [List.getD_eq_getElem?_getD, this]; rfl
      · congr 1
        apply List.ext_getElem
        · rw [List.length_map, List.length_range, hclen]
        · intro i hi1 hi2
          obtain ⟨x, hx1, hx2⟩ := c3 i (List.mem_range.2 (by omega))
          rw [List.getElem?_eq_getElem hi1] at hx1
          rw [List.getElem_map, List.getElem_range]
          rw [cbAt_eq S s (by omega), ← hx2 (by omega)]
          exact Option.some.inj hx1

/-- Only the states at the end of a path matter. -/
theorem blockPure_congr (S : Scheme N n l) {g : Graph} (hg : g.WF) {L : List Nat} (hL : ∀ q ∈ L, q < g.size) {T T' : Nat → TRLWE N}
    (cs : List (Gsw l N)) (d : Nat) (h : ∀ q ∈ g.levelSet L (d + cs.length), T q = T' q) (q : Nat) (hq : q ∈ g.levelSet L d) :
    blockPure S g T cs q = blockPure S g T' cs q := by
  induction cs generalizing d q with
  | nil => exact h q hq
  | cons c cs ih =>
    have e : d + (c :: cs).length = d + 1 + cs.length := by rw [List.length_cons]; omega
    rw [e] at h
    rw [blockPure, blockPure, ih (d + 1) h _ (hg.step_levelSet hL hq false), ih (d + 1) h _ (hg.step_levelSet hL hq true)]

/-- One evaluation of a queue whose length fits in an `int`. -/
theorem evalQueued_ok (S : Scheme N n l) {r : Block N l} (hg : r.graph.WF) (hq : r.queued ≠ []) (hint : r.queued.length ≤ 2 ^ 31)
    (hs : SSorted r.live) (hlt : ∀ q ∈ r.live, q < r.graph.size)
    (hsel : r.live.length ≠ 1 → r.selector ≠ none)
    (hN1 : Nat.log2 (r.graph.levelSet r.live r.queued.length).length + 1 < N)
    (hN2 : r.live.length ≠ 1 → Nat.log2 r.live.length + 1 < N) (h31 : Nat.log2 r.live.length + 1 < 31) :
    ∃ r' w, r.evalQueued S = .ok r' ∧ r'.graph = r.graph ∧ r'.queueSize = r.queueSize ∧ r'.queued = [] ∧
      r'.live = r.graph.levelSet r.live r.queued.length ∧ r'.selector = some w ∧
      r'.timer = r.timer ++ blockSamples r.graph r.live r.queued.length ∧
      (r.live.length = 1 → ∀ q ∈ r.live, w = blockPure S r.graph (wInit N r.graph r'.live) r.queued q) ∧
      (r.live.length ≠ 1 → ∃ s T, r.selector = some s ∧
        (∀ j (h : j < r.live.length), T j = blockPure S r.graph (wInit N r.graph r'.live) r.queued r.live[j]) ∧
        w = lutPure S ((List.range (Nat.log2 r.live.length + 1)).map (cbAt S s)) T) := by
  obtain ⟨r', w, h1, h2, h3, h4, h5, h6, h7, h8, h9⟩ := evalQueued_any S hg hq hs hlt hsel hN1 hN2 h31
  rw [countDown_eq hint] at h7 h8 h9
  rw [List.take_length] at h8 h9
  have hc : ∀ q ∈ r.live, blockPure S r.graph (wFirst N r.graph r'.live) r.queued q = blockPure S r.graph (wInit N r.graph r'.live) r.queued q := by
    intro q hq
    refine blockPure_congr S hg hlt r.queued 0 (fun p hp => ?_) q hq
    rw [Nat.zero_add, ← h5] at hp
    exact if_pos hp
  refine ⟨r', w, h1, h2, h3, h4, h5, h6, h7, fun h q hq => by rw [h8 h q hq, hc q hq], fun h => ?_⟩
  obtain ⟨s, T, e1, e2, e3⟩ := h9 h
  exact ⟨s, T, e1, fun j hj => by rw [e2 j hj, hc _ (List.getElem_mem hj)], e3⟩

/-! ## Noise -/

section
variable {S : Scheme N n l} {δ : Noise} {Enc : Gsw l N → Bool → Prop}

theorem blockPure_near (hS : S.Sound δ Enc) (g : Graph) (T : Nat → TRLWE N) {cs : List (Gsw l N)} {v : List Bool}
    (h : List.Forall₂ Enc cs v) (q : Nat) (i : Fin N) :
    Near (v.length * δ.cmux) ((blockPure S g T cs q).phase S.sk.lvl1 i) ((T (v.foldl g.nx q)).phase S.sk.lvl1 i) := by
  induction h generalizing q with
  | nil => exact Near.rfl'
  | @cons c b cs v hc _ ih =>
    have h1 := hS.cmux c b (blockPure S g T cs (g.nx q true)) (blockPure S g T cs (g.nx q false)) i hc
    have h2 : Near (v.length * δ.cmux) ((if b then blockPure S g T cs (g.nx q true) else blockPure S g T cs (g.nx q false)).phase
        S.sk.lvl1 i) ((T ((b :: v).foldl g.nx q)).phase S.sk.lvl1 i) := by
      cases b
      · exact ih _
      · exact ih _
    refine (h1.trans h2).mono ?_
    rw [List.length_cons, Nat.add_mul]; omega

/-- What a selector holds: the final bit of state `p` and the index of `p` in the live set. -/
def SelOk (S : Scheme N n l) (g : Graph) (e : Nat) (s : TRLWE N) (live : List Nat) (p : Nat) : Prop :=
  ∀ i : Fin N, Near e (s.phase S.sk.lvl1 i) (bw N (g.fin p) (live.idxOf p) (Nat.log2 live.length + 1) i)

theorem SelOk.mono {g : Graph} {e e' : Nat} {s : TRLWE N} {live : List Nat} {p : Nat} (h : SelOk S g e s live p) (he : e ≤ e') :
    SelOk S g e' s live p := fun i => (h i).mono he

theorem cb_eighth (hS : S.Sound δ Enc) {c : TLWE N} {b : Bool} {e : Nat} (h : Near e (c.phase S.sk.lvl1) (eighth b))
    (he : e + δ.cb < 2 ^ 29) : Enc (S.cb c) b := by
  cases b
  · have := toInt_neg_of_near (m := 2 ^ 29) (by decide) h (by omega) (by omega)
    exact hS.cb_neg c (by omega) (by omega)
  · have := toInt_pos_of_near (m := 2 ^ 29) (by decide) h (by omega) (by omega)
    exact hS.cb_pos c (by omega) (by omega)

/-- The selector after one evaluation of the queue. -/
theorem evalQueued_sel (hS : S.Sound δ Enc) {r r' : Block N l} {w : TRLWE N} {v : List Bool} {e B p : Nat}
    (hv : List.Forall₂ Enc r.queued v) (hp : p ∈ r.live) (hB : Nat.log2 r.live.length + 1 ≤ B) (hBN : B < N)
    (hsel : ∀ s, r.selector = some s → SelOk S r.graph e s r.live p) (he : e + δ.cb < 2 ^ 29)
    (h1 : r.live.length = 1 → ∀ q ∈ r.live, w = blockPure S r.graph (wInit N r.graph r'.live) r.queued q)
    (h2 : r.live.length ≠ 1 → ∃ s T, r.selector = some s ∧
        (∀ j (h : j < r.live.length), T j = blockPure S r.graph (wInit N r.graph r'.live) r.queued r.live[j]) ∧
        w = lutPure S ((List.range (Nat.log2 r.live.length + 1)).map (cbAt S s)) T) :
    SelOk S r.graph ((v.length + B) * δ.cmux) w r'.live (v.foldl r.graph.nx p) := by
  have hT : ∀ q (i : Fin N), Near (v.length * δ.cmux) ((blockPure S r.graph (wInit N r.graph r'.live) r.queued q).phase S.sk.lvl1 i)
      (bw N (r.graph.fin (v.foldl r.graph.nx q)) (r'.live.idxOf (v.foldl r.graph.nx q)) (Nat.log2 r'.live.length + 1) i) := by
    intro q i
    have := blockPure_near hS r.graph (wInit N r.graph r'.live) hv q i
    rwa [wInit, phase_trivial] at this
  intro i
  by_cases hl : r.live.length = 1
  · rw [h1 hl p hp]
    exact (hT p i).mono (by rw [Nat.add_mul]; omega)
  · obtain ⟨s, T, e1, e2, e3⟩ := h2 hl
    have hidx : r.live.idxOf p < r.live.length := List.idxOf_lt_length_iff.2 hp
    have hcond : List.Forall₂ Enc ((List.range (Nat.log2 r.live.length + 1)).map (cbAt S s))
        ((List.range (Nat.log2 r.live.length + 1)).map (r.live.idxOf p).testBit) := by
      rw [List.forall₂_map_left_iff, List.forall₂_map_right_iff, List.forall₂_same]
      intro j hj
      rw [List.mem_range] at hj
      have hjN : j + 1 < N := by omega
      rw [cbAt_eq S s hjN]
      refine cb_eighth hS (e := e) ?_ he
      rw [phase_sampleExtract]
      have := hsel s e1 ⟨j + 1, hjN⟩
      unfold bw at this
      rw [if_neg (by simp), if_pos (by simp; omega)] at this
      simpa using this
    have hnear := lutPure_near hS hcond T i
    rw [lsbIndex_testBit _ _ (Nat.lt_trans hidx Nat.lt_log2_self), e2 _ hidx, List.getElem_idxOf, ← e3, List.length_map,
      List.length_range] at hnear
    refine (hnear.trans (hT p i)).mono ?_
    rw [Nat.add_mul v.length B]
    have : (Nat.log2 r.live.length + 1) * δ.cmux ≤ B * δ.cmux := Nat.mul_le_mul_right _ hB
    omega

/-! ## The invariant over a history -/

/-- The runner has processed `u` and holds `v` in its queue. -/
structure BInv (S : Scheme N n l) (Enc : Gsw l N → Bool → Prop) (g : Graph) (qs E : Nat) (r : Block N l) (u v : List Bool) : Prop where
  graph : r.graph = g
  queueSize : r.queueSize = qs
  queued : List.Forall₂ Enc r.queued v
  live : r.live = g.levelSet [g.init] u.length
  sel_none : u = [] → r.selector = none
  sel : u ≠ [] → ∃ s, r.selector = some s ∧ SelOk S g E s r.live (u.foldl g.nx g.init)

theorem binv_make {g : Graph} (qs E : Nat) :
    ∃ r : Block N l, Block.make g qs false = .ok r ∧ BInv S Enc g qs E r [] [] ∧ r.timer = [] :=
  ⟨_, rfl, ⟨rfl, rfl, .nil, rfl, fun _ => rfl, fun h => absurd rfl h⟩, rfl⟩

theorem levelSet_ne_nil {g : Graph} (hg : g.WF) (d : Nat) : g.levelSet [g.init] d ≠ [] := by
  have h := hg.run_mem_levelSet (L := [g.init]) (by intro q hq; simp at hq; subst hq; exact hg.init_lt) (q := g.init) (by simp)
    (List.replicate d false)
  rw [List.length_replicate] at h
  exact List.ne_nil_of_mem h

theorem log2_lt_of {k B : Nat} (h0 : k ≠ 0) (h : k < 2 ^ B) : Nat.log2 k + 1 ≤ B := (Nat.log2_lt h0).2 h

theorem binv_eval (hS : S.Sound δ Enc) {g : Graph} (hg : g.WF) {qs E B : Nat} (hB : ∀ d, (g.levelSet [g.init] d).length < 2 ^ B)
    (hBN : B < N) (hB31 : B < 31) (he : E + δ.cb < 2 ^ 29) {r : Block N l} {u v : List Bool} (h : BInv S Enc g qs E r u v)
    (hint : v.length ≤ 2 ^ 31) (hE : (v.length + B) * δ.cmux ≤ E) :
    ∃ r', r.evalQueued S = .ok r' ∧ BInv S Enc g qs E r' (u ++ v) [] := by
  by_cases hv : v = []
  · subst hv
    have hq : r.queued = [] := List.eq_nil_of_length_eq_zero h.queued.length_eq
    rw [List.append_nil]
    exact ⟨r, evalQueued_empty S hq, h⟩
  · have hlen : r.queued.length = v.length := h.queued.length_eq
    have hq : r.queued ≠ [] := by
      intro hq; rw [hq] at hlen; exact hv (List.eq_nil_of_length_eq_zero hlen.symm)
    have hi : ∀ q ∈ [g.init], q < g.size := by intro q hq; simp at hq; subst hq; exact hg.init_lt
    have hs : SSorted r.live := by rw [h.live]; exact Graph.sorted_levelSet (by simp) _
    have hlt : ∀ q ∈ r.live, q < r.graph.size := by rw [h.live, h.graph]; exact Graph.levelSet_lt hi _
    have hbits : ∀ d, Nat.log2 (g.levelSet [g.init] d).length + 1 ≤ B := fun d =>
      log2_lt_of (fun h0 => levelSet_ne_nil hg d (List.eq_nil_of_length_eq_zero h0)) (hB d)
    have hlog : Nat.log2 r.live.length + 1 ≤ B := by rw [h.live]; exact hbits _
    have hnext : r.graph.levelSet r.live r.queued.length = g.levelSet [g.init] (u ++ v).length := by
      rw [h.graph, h.live, Graph.levelSet_add, hlen, List.length_append]
    obtain ⟨r', w, h1, h2, h3, h4, h5, h6, _, h8, h9⟩ := evalQueued_ok S (r := r) (by rw [h.graph]; exact hg) hq (by omega) hs hlt
      (by
        intro hne
        by_cases hu : u = []
        · exfalso
          rw [h.live, hu] at hne
          exact hne rfl
        · obtain ⟨s, hs, _⟩ := h.sel hu
          rw [hs]; simp)
      (by rw [hnext]; have := hbits (u ++ v).length; omega) (fun _ => by omega) (by omega)
    have hp : u.foldl g.nx g.init ∈ r.live := by rw [h.live]; exact hg.run_mem_levelSet hi (by simp) u
    have hsel := evalQueued_sel hS (e := E) h.queued hp hlog hBN (by
      intro s hs
      rw [h.graph]
      by_cases hu : u = []
      · rw [h.sel_none hu] at hs; cases hs
      · obtain ⟨s', hs', hok⟩ := h.sel hu
        rw [hs] at hs'
        cases hs'
        exact hok) he h8 h9
    refine ⟨r', h1, h2.trans h.graph, h3.trans h.queueSize, by rw [h4]; exact .nil, h5.trans hnext, ?_, ?_⟩
    · intro hnil
      rw [List.append_eq_nil_iff] at hnil
      exact absurd hnil.2 hv
    · intro _
      refine ⟨w, h6, ?_⟩
      rw [h.graph] at hsel
      rw [List.foldl_append]
      exact hsel.mono hE

theorem binv_one (hS : S.Sound δ Enc) {g : Graph} (hg : g.WF) {qs E B : Nat} (hB : ∀ d, (g.levelSet [g.init] d).length < 2 ^ B)
    (hBN : B < N) (hB31 : B < 31) (he : E + δ.cb < 2 ^ 29) {r : Block N l} {u v : List Bool} (h : BInv S Enc g qs E r u v)
    (hv : v.length + 1 ≤ max 1 qs) (hint : qs ≤ 2 ^ 31) (hE : (max 1 qs + B) * δ.cmux ≤ E) {c : Gsw l N} {b : Bool} (hc : Enc c b) :
    ∃ r' u' v', r.evalOne S c = .ok r' ∧ BInv S Enc g qs E r' u' v' ∧ u' ++ v' = u ++ v ++ [b] ∧ v'.length + 1 ≤ max 1 qs := by
  unfold Block.evalOne
  dsimp only
  have hq := h.queued.length_eq
  have hq2 : List.Forall₂ Enc (r.queued ++ [c]) (v ++ [b]) := List.rel_append h.queued (.cons hc .nil)
  have hinv : BInv S Enc g qs E { r with queued := r.queued ++ [c] } u (v ++ [b]) :=
    ⟨h.graph, h.queueSize, hq2, h.live, h.sel_none, h.sel⟩
  by_cases hlt : (r.queued ++ [c]).length < r.queueSize
  · rw [if_pos hlt]
    refine ⟨_, u, v ++ [b], rfl, hinv, by simp, ?_⟩
    rw [hq2.length_eq, h.queueSize] at hlt
    omega
  · rw [if_neg hlt]
    obtain ⟨r', h1, h2⟩ := binv_eval hS hg hB hBN hB31 he hinv (by rw [List.length_append, List.length_singleton]; omega) (by
      refine Nat.le_trans (Nat.mul_le_mul_right _ ?_) hE
      rw [List.length_append, List.length_singleton]; omega)
    exact ⟨r', _, [], h1, h2, by simp, by simp⟩

theorem binv_result (hS : S.Sound δ Enc) {g : Graph} (hg : g.WF) {qs E B : Nat} (hB : ∀ d, (g.levelSet [g.init] d).length < 2 ^ B)
    (hBN : B < N) (hB31 : B < 31) (he : E + δ.cb < 2 ^ 29) {r : Block N l} {u v : List Bool} (h : BInv S Enc g qs E r u v)
    (hv : v.length + 1 ≤ max 1 qs) (hint : qs ≤ 2 ^ 31) (hE : (max 1 qs + B) * δ.cmux ≤ E) (hne : u ++ v ≠ []) :
    ∃ c r', r.result S = .ok (c, r') ∧ BInv S Enc g qs E r' (u ++ v) [] ∧
      Near E (c.phase S.sk.lvl1) (half (g.fin ((u ++ v).foldl g.nx g.init))) := by
  obtain ⟨r', h1, h2⟩ := binv_eval hS hg hB hBN hB31 he h (by omega) (by
    refine Nat.le_trans (Nat.mul_le_mul_right _ ?_) hE
    omega)
  obtain ⟨s, hs1, hs2⟩ := h2.sel hne
  unfold Block.result
  rw [h1, Res.bind_ok, hs1]
  dsimp only
  rw [sampleExtractAt_ok (by omega), Res.bind_ok]
  refine ⟨_, r', rfl, h2, ?_⟩
  rw [phase_sampleExtract]
  have := hs2 ⟨0, by omega⟩
  unfold bw at this
  rwa [if_pos rfl] at this

end

end Homfa
