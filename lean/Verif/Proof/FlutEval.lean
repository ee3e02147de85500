import Verif.Proof.Flut

/-! FLUT: `eval_queued_inputs`. -/

namespace Homfa

variable {N n l : Nat} {S : Scheme N n l} {δ : Noise} {Enc : Gsw l N → Bool → Prop}

/-- the state reached from `p.1` by the word whose first part is `x1` and second part `p.2` -/
def fdst (g : Graph) (k first x1 : Nat) (p : Nat × Nat) : Nat := (wordOf k ((p.2 <<< first) ||| x1)).foldl g.nx p.1

/-- the filled table -/
def fentry (g : Graph) (next : List Nat) (k first cnt2 : Nat) (live : List Nat) (W : Nat → TRLWE N) (x1 : Nat) : TRLWE N :=
  fillPure (fun p => p.2 * next.length + next.idxOf (fdst g k first x1 p)) W
    (live.flatMap fun st => (List.range cnt2).map fun i => (st, i)) (trivialTRLWEZero N)

/-- the rotated copies -/
def frot (m : Nat) (y : TRLWE N) (j : Nat) : TRLWE N := if j = 0 then y else rotT ((2 * N - j * m : Nat) : Int) y

theorem frot_phase {m j c : Nat} {y : TRLWE N} (key : Fin N → Torus) (hc : c < N) (h : j * m + c < N) :
    (frot m y j).phase key ⟨c, hc⟩ = y.phase key ⟨j * m + c, h⟩ := by
  unfold frot
  by_cases hj : j = 0
  · subst hj
    rw [if_pos rfl]
    congr 1
    simp
  · rw [if_neg hj]
    have := congrFun (phase_rot y ((2 * N - j * m : Nat) : Int) key) ⟨c, hc⟩
    unfold rotT
    rw [this]
    show ext _ _ = _
    have e : (((⟨c, hc⟩ : Fin N) : Nat) : Int) - ((2 * N - j * m : Nat) : Int) = ((j * m + c : Nat) : Int) - N - N := by
      push_cast [Nat.cast_sub (show j * m ≤ 2 * N by omega)]
      ring
    rw [e, ext_sub, ext_sub, neg_neg]
    exact ext_of_lt _ ⟨j * m + c, h⟩

theorem mem_pairs {live : List Nat} {cnt2 : Nat} {p : Nat × Nat} :
    p ∈ live.flatMap (fun st => (List.range cnt2).map fun i => (st, i)) ↔ p.1 ∈ live ∧ p.2 < cnt2 := by
  obtain ⟨a, b⟩ := p
  simp only [List.mem_flatMap, List.mem_map, List.mem_range, Prod.mk.injEq]
  constructor
  · rintro ⟨st, h1, i, h2, rfl, rfl⟩; exact ⟨h1, h2⟩
  · rintro ⟨h1, h2⟩; exact ⟨a, h1, b, h2, rfl, rfl⟩

/-- the fill loop -/
theorem fill_ok {g : Graph} {row live next st2idx : List Nat} {k first second : Nat}
    (hrow : MemoOk g k row) (hlive : ∀ q ∈ live, q < g.size) (hk : first + second = k)
    (hmem : ∀ p ∈ live, ∀ x < 2 ^ k, (wordOf k x).foldl g.nx p ∈ next)
    (hidx : ∀ q ∈ next, st2idx[q]? = some (next.idxOf q)) (hN : next.length * 2 ^ second ≤ N)
    {weight : List (TRLWE N)} {W : Nat → TRLWE N} (hW : ∀ q ∈ live, weight[q]? = some (W q)) :
    ∃ t, parFor ((List.range (2 ^ first)).map fun input1 => fillTask g row st2idx first next.length input1
        (live.flatMap fun st => (List.range (2 ^ second)).map fun i => (st, i)))
        [List.replicate (2 ^ first) (trivialTRLWEZero N), weight] = .ok [t, weight] ∧ t.length = 2 ^ first ∧
      ∀ x1 < 2 ^ first, t[x1]? = some (fentry g next k first (2 ^ second) live W x1) := by
  obtain ⟨w', e1, e2, e3, _⟩ := parFor_write
    (task := fun input1 => fillTask g row st2idx first next.length input1
        (live.flatMap fun st => (List.range (2 ^ second)).map fun i => (st, i))) (rest := [weight])
    (P := fun x1 x => x = fentry g next k first (2 ^ second) live W x1)
    (w0 := List.replicate (2 ^ first) (trivialTRLWEZero N)) (List.range (2 ^ first)) List.nodup_range (by
      intro x1 hx1 w _ hw0
      rw [List.mem_range] at hx1
      rw [List.getElem?_replicate, if_pos hx1] at hw0
      refine ⟨_, rfl, ?_⟩
      refine fillTask_run (fdst g k first x1) (fun p => next.idxOf (fdst g k first x1 p)) W _ ?_ w _ hw0
      intro p hp
      obtain ⟨h1, h2⟩ := mem_pairs.1 hp
      have hlt : (p.2 <<< first) ||| x1 < 2 ^ k := by rw [← hk]; exact or_lt hx1 h2
      have hin := hmem p.1 h1 _ hlt
      refine ⟨hrow _ hlt _ (hlive _ h1), hW _ h1, hidx _ hin, ?_⟩
      have := pack_lt (List.idxOf_lt_length_iff.2 hin) h2
      unfold fdst
      omega) (by intro j hj; rw [List.mem_range] at hj; simpa using hj)
  refine ⟨w', e1, by simpa using e2, fun x1 hx1 => ?_⟩
  obtain ⟨x, h1, h2⟩ := e3 x1 (List.mem_range.2 hx1)
  rw [h1, h2]

/-- the rotation loop -/
theorem rot_ok {m cnt : Nat} (hm : cnt ≠ 0 → m * cnt ≤ N) {t : List (TRLWE N)} (ht : t.length = cnt) {y : TRLWE N}
    (h0 : t[0]? = some y) :
    ∃ t', parFor ((List.range (cnt - 1)).map fun i => rotTask N m (i + 1)) [t] = .ok [t'] ∧ t'.length = cnt ∧
      ∀ j < cnt, t'[j]? = some (frot m y j) := by
  have hmap : ((List.range (cnt - 1)).map fun i => rotTask N m (i + 1)) = ((List.range (cnt - 1)).map (· + 1)).map (rotTask N m) := by
    rw [List.map_map]; rfl
  have hin : ∀ q, q ∈ (List.range (cnt - 1)).map (· + 1) ↔ q ≠ 0 ∧ q < cnt := by
    intro q
    simp only [List.mem_map, List.mem_range]
    constructor
    · rintro ⟨a, h, rfl⟩; omega
    · rintro ⟨h1, h2⟩; exact ⟨q - 1, by omega, by omega⟩
  obtain ⟨w', e1, e2, e3, e4⟩ := parFor_write2 (task := rotTask N m) (rest := []) (P := fun j x => x = frot m y j) (w0 := t)
    ((List.range (cnt - 1)).map (· + 1)) (List.nodup_range.map (fun a b h => by simpa using h)) (by
      intro q hq w hw hwq hout
      rw [hin] at hq
      have hy : w[0]? = some y := by rw [hout 0 (by rw [hin]; simp), h0]
      have hqm : q * m ≤ N := Nat.le_trans (by rw [Nat.mul_comm]; exact Nat.mul_le_mul_left _ (by omega)) (hm (by omega))
      refine ⟨_, rfl, ?_⟩
      unfold rotTask
      rw [Prog.run_read0 (List.getElem?_eq_getElem (by omega : q < w.length)), Prog.run_read0 hy, if_pos (by omega),
        Prog.run_local _ (multXk_ok _ _ _ (by omega)), Prog.run_write0 (by omega)]
      unfold frot
      rw [if_neg hq.1]
      rfl) (by intro q hq; rw [hin] at hq; omega)
  rw [hmap]
  refine ⟨w', e1, e2.trans ht, fun j hj => ?_⟩
  by_cases hj0 : j = 0
  · subst hj0
    rw [e4 0 (by rw [hin]; simp), h0]
    rfl
  · obtain ⟨x, h1, h2⟩ := e3 j ((hin j).2 ⟨hj0, hj⟩)
    rw [h1, h2]

/-- phase of the packed result of the two lookups -/
theorem lookup_near (hS : S.Sound δ Enc) {g : Graph} {next live : List Nat} {k first second : Nat} (hk : first + second = k)
    (hmem : ∀ p ∈ live, ∀ x < 2 ^ k, (wordOf k x).foldl g.nx p ∈ next) (hnd : live.Nodup) (hN : next.length * 2 ^ second ≤ N)
    {W : Nat → TRLWE N} {e cur : Nat} (hcur : cur ∈ live)
    (hW : ∀ st ∈ live, ∀ i : Fin N, Near e ((W st).phase S.sk.lvl1 i) (if i.val = 0 then half (decide (st = cur)) else 0))
    {c1 c2 : List (Gsw l N)} {v1 v2 : List Bool} (h1 : List.Forall₂ Enc c1 v1) (h2 : List.Forall₂ Enc c2 v2)
    (hl1 : v1.length = first) (hl2 : v2.length = second) {T1 T2 : Nat → TRLWE N}
    (hT1 : ∀ x1 < 2 ^ first, T1 x1 = fentry g next k first (2 ^ second) live W x1)
    (hT2 : ∀ j < 2 ^ second, T2 j = frot next.length (lutPure S c1 T1) j) {q : Nat} (hq : q ∈ next) (hlt : next.idxOf q < N) :
    Near (live.length * 2 ^ second * e + k * δ.cmux) ((lutPure S c2 T2).phase S.sk.lvl1 ⟨next.idxOf q, hlt⟩)
      (half (decide (q = (v1 ++ v2).foldl g.nx cur))) := by
  have hx1 : lsbIndex v1 < 2 ^ first := by rw [← hl1]; exact lsbIndex_lt _
  have hx2 : lsbIndex v2 < 2 ^ second := by rw [← hl2]; exact lsbIndex_lt _
  have hqi : next.idxOf q < next.length := List.idxOf_lt_length_iff.2 hq
  have hpk : lsbIndex v2 * next.length + next.idxOf q < N := Nat.lt_of_lt_of_le (pack_lt hqi hx2) hN
  have n2 := lutPure_near hS h2 T2 ⟨next.idxOf q, hlt⟩
  rw [hT2 _ hx2, frot_phase _ hlt hpk] at n2
  have n1 := lutPure_near hS h1 T1 ⟨lsbIndex v2 * next.length + next.idxOf q, hpk⟩
  rw [hT1 _ hx1] at n1
  have n0 := fill_near (S := S) hnd hcur (m := next.length) (cnt2 := 2 ^ second)
    (fun p => next.idxOf (fdst g k first (lsbIndex v1) p)) (by
      intro st hst i hi
      exact List.idxOf_lt_length_iff.2 (hmem st hst _ (by rw [← hk]; exact or_lt hx1 hi))) hN W hW hx2 hqi hpk
  have hdst : fdst g k first (lsbIndex v1) (cur, lsbIndex v2) = (v1 ++ v2).foldl g.nx cur := by
    unfold fdst
    dsimp only
    rw [← hl1, lsb_or, show k = (v1 ++ v2).length by rw [List.length_append]; omega, wordOf_lsbIndex]
  have hin : (v1 ++ v2).foldl g.nx cur ∈ next := by
    rw [← hdst]
    exact hmem cur hcur _ (by rw [← hk]; exact or_lt hx1 hx2)
  have hiff : (next.idxOf (fdst g k first (lsbIndex v1) (cur, lsbIndex v2)) = next.idxOf q) ↔ q = (v1 ++ v2).foldl g.nx cur := by
    rw [hdst]
    constructor
    · intro h
      exact ((List.idxOf_inj hin).1 h).symm
    · intro h
      rw [h]
  rw [show decide (next.idxOf (fdst g k first (lsbIndex v1) (cur, lsbIndex v2)) = next.idxOf q) =
    decide (q = (v1 ++ v2).foldl g.nx cur) from decide_eq_decide.2 hiff] at n0
  refine ((n2.trans n1).trans n0).mono ?_
  rw [hl1, hl2, ← hk, Nat.add_mul]
  omega

/-- the last loop -/
theorem split_ok {next st2idx : List Nat} (hnd : next.Nodup) (hidx : ∀ q ∈ next, st2idx[q]? = some (next.idxOf q))
    {weight t : List (TRLWE N)} (hlt : ∀ q ∈ next, q < weight.length) {y : TRLWE N} (h0 : t[0]? = some y)
    (hN : next.length ≤ N) (hN0 : 0 < N) (boot : Bool) :
    ∃ w', parFor (next.map (splitTask S st2idx boot)) [weight, t] = .ok [w', t] ∧ w'.length = weight.length ∧
      ∀ q ∈ next, ∀ h : next.idxOf q < N, w'[q]? = some (S.tlwe2trlwe (if boot then
        sampleExtract (S.bsHalfToHalf (S.iks (sampleExtract y ⟨next.idxOf q, h⟩))) ⟨0, hN0⟩
        else sampleExtract y ⟨next.idxOf q, h⟩)) := by
  obtain ⟨w', e1, e2, e3, _⟩ := parFor_write (task := splitTask S st2idx boot) (rest := [t])
    (P := fun q x => ∀ h : next.idxOf q < N, x = S.tlwe2trlwe (if boot then
        sampleExtract (S.bsHalfToHalf (S.iks (sampleExtract y ⟨next.idxOf q, h⟩))) ⟨0, hN0⟩
        else sampleExtract y ⟨next.idxOf q, h⟩))
    (w0 := weight) next hnd (by
      intro q hq w hw _
      have hi : next.idxOf q < N := Nat.lt_of_lt_of_le (List.idxOf_lt_length_iff.2 hq) hN
      have hb : (if boot then sampleExtractAt (S.bsHalfToHalf (S.iks (sampleExtract y ⟨next.idxOf q, hi⟩))) 0
          else .ok (sampleExtract y ⟨next.idxOf q, hi⟩)) = .ok (if boot then
        sampleExtract (S.bsHalfToHalf (S.iks (sampleExtract y ⟨next.idxOf q, hi⟩))) ⟨0, hN0⟩
        else sampleExtract y ⟨next.idxOf q, hi⟩) := by
        cases boot
        · rfl
        · simp only [if_true]
          rw [sampleExtractAt_ok hN0]
      refine ⟨S.tlwe2trlwe (if boot then
        sampleExtract (S.bsHalfToHalf (S.iks (sampleExtract y ⟨next.idxOf q, hi⟩))) ⟨0, hN0⟩
        else sampleExtract y ⟨next.idxOf q, hi⟩), fun _ => rfl, ?_⟩
      unfold splitTask
      rw [Prog.run_read1 h0, Prog.run_local _ (vat_eq_ok.2 (hidx q hq)), Prog.run_local _ (sampleExtractAt_ok hi),
        Prog.run_local _ hb, Prog.run_write0 (by rw [hw]; exact hlt q hq)]) hlt
  refine ⟨w', e1, e2, fun q hq h => ?_⟩
  obtain ⟨x, h1, h2⟩ := e3 q hq
  rw [h1, h2 h]

theorem vresize_zero {α : Type} {v : List α} {k : Nat} {x y : α} (h : v[0]? = some y) (hk : 0 < k) : (vresize v k x)[0]? = some y := by
  cases v with
  | nil => simp at h
  | cons a v =>
    cases k with
    | zero => omega
    | succ k => simpa [vresize] using h

/-- One evaluation of a non-empty queue, without noise: either the guard stops the program or the computation succeeds. -/
theorem flut_eval_ok (S : Scheme N n l) {r : Flut N l} (hg : r.graph.WF) {k : Nat} (hk0 : k ≠ 0) (hk31 : k < 31) (hq : r.queued.length = k)
    {row : List Nat} (hrow : r.memo[k]? = some row) (hrow' : MemoOk r.graph k row) (hs : SSorted r.live)
    (hlt : ∀ q ∈ r.live, q < r.graph.size) (hne : r.live ≠ []) (hmax : r.maxSecond < 31) (hmaxN : 2 ^ r.maxSecond ≤ N)
    (hboot : r.bootFreq ≠ 0) (hwl : r.weight.length = r.graph.size) {W : Nat → TRLWE N} (hW : ∀ q ∈ r.live, r.weight[q]? = some (W q)) :
    (2 ^ r.maxSecond ≤ (r.graph.levelSet r.live k).length → r.evalQueued S = .error .die) ∧
    ((r.graph.levelSet r.live k).length < 2 ^ r.maxSecond →
      ∃ first second w' T1 T2, first + second = k ∧
        second = min (k / 2) (r.maxSecond - Nat.clog 2 (r.graph.levelSet r.live k).length) ∧
        (r.graph.levelSet r.live k).length * 2 ^ second ≤ N ∧
        r.evalQueued S = .ok { r with weight := w', queued := [], live := r.graph.levelSet r.live k, numEval := r.numEval + 1,
                                      first := first, second := second } ∧ w'.length = r.graph.size ∧
        (∀ x1 < 2 ^ first, T1 x1 = fentry r.graph (r.graph.levelSet r.live k) k first (2 ^ second) r.live W x1) ∧
        (∀ j < 2 ^ second, T2 j = frot (r.graph.levelSet r.live k).length (lutPure S (r.queued.take first) T1) j) ∧
        ∀ q ∈ r.graph.levelSet r.live k, ∀ (h : (r.graph.levelSet r.live k).idxOf q < N) (h0 : 0 < N),
          w'[q]? = some (S.tlwe2trlwe (if (r.numEval + 1) % r.bootFreq = 0 then
            sampleExtract (S.bsHalfToHalf (S.iks (sampleExtract (lutPure S (r.queued.drop first) T2)
              ⟨(r.graph.levelSet r.live k).idxOf q, h⟩))) ⟨0, h0⟩
            else sampleExtract (lutPure S (r.queued.drop first) T2) ⟨(r.graph.levelSet r.live k).idxOf q, h⟩))) := by
  have hsn : SSorted (r.graph.levelSet r.live k) := Graph.sorted_levelSet hs k
  have hltn : ∀ q ∈ r.graph.levelSet r.live k, q < r.graph.size := Graph.levelSet_lt hlt k
  obtain ⟨st2idx, hi1, hi2⟩ := flutIdx_ok (g := r.graph) hsn.nodup hltn
  have hnext := flutNext_ok hg hk31 hrow' hlt hk0
  have hmem : ∀ p ∈ r.live, ∀ x < 2 ^ k, (wordOf k x).foldl r.graph.nx p ∈ r.graph.levelSet r.live k :=
    fun p hp x hx => (Graph.mem_level_words hg hlt).2 ⟨x, hx, p, hp, rfl⟩
  have hne' : (r.graph.levelSet r.live k).length ≠ 0 := by
    obtain ⟨p, hp⟩ := List.exists_mem_of_ne_nil _ hne
    have := hmem p hp 0 (Nat.pos_of_ne_zero (by simp))
    exact fun h => List.ne_nil_of_mem this (List.eq_nil_of_length_eq_zero h)
  have hN0 : 0 < N := Nat.lt_of_lt_of_le (Nat.pos_of_ne_zero (by simp)) hmaxN
  have hpre : ∀ X, r.evalQueued S = X ↔ (do
      let d ← lutDepths r.maxSecond (r.graph.levelSet r.live k).length k
      let first := d.1
      let second := d.2
      let cnt1 ← shl1 first
      let cnt2 ← shl1 second
      let pairs := r.live.flatMap fun st => (List.range cnt2).map fun i => (st, i)
      let p ← two (← parFor ((List.range cnt1).map fun input1 => fillTask r.graph row st2idx first (r.graph.levelSet r.live k).length input1 pairs)
        [List.replicate cnt1 (trivialTRLWEZero N), r.weight])
      let t1 ← lookupTable S p.1 (r.queued.take first) []
      let table := vresize t1.1 cnt2 (trivialTRLWEZero N)
      let table ← one (← parFor ((List.range (cnt2 - 1)).map fun i => rotTask N (r.graph.levelSet r.live k).length (i + 1)) [table])
      let t2 ← lookupTable S table (r.queued.drop first) t1.2
      let numEval := r.numEval + 1
      if r.bootFreq = 0 then throw .ub
      let boot := decide (numEval % r.bootFreq = 0)
      let p ← two (← parFor ((r.graph.levelSet r.live k).map (splitTask S st2idx boot)) [r.weight, t2.1])
      pure { r with weight := p.1, queued := [], live := r.graph.levelSet r.live k, numEval := numEval, first := first, second := second } : Res (Flut N l)) = X := by
    intro X
    unfold Flut.evalQueued
    dsimp only
    rw [hq, if_neg hk0, vat_eq_ok.2 hrow, Res.bind_ok, hnext, Res.bind_ok, hi1, Res.bind_ok]
  constructor
  · intro hge
    rw [hpre, lutDepths_die (by omega) hge]; rfl
  · intro hlt2
    obtain ⟨first, second, d1, d2, _, d4⟩ := lutDepths_ok (k := k) (by omega) hlt2
    have d3 : second = min (k / 2) (r.maxSecond - Nat.clog 2 (r.graph.levelSet r.live k).length) := by
      rw [lutDepths_eq (by omega) hlt2] at d1
      exact (congrArg Prod.snd (Except.ok.inj d1)).symm
    have hN : (r.graph.levelSet r.live k).length * 2 ^ second ≤ N := Nat.le_trans (d4 hne') hmaxN
    have hp2 : 0 < 2 ^ second := Nat.pos_of_ne_zero (by simp)
    obtain ⟨t, f1, f2, f3⟩ := fill_ok hrow' hlt d2 hmem hi2 hN hW
    have hl1 : (r.queued.take first).length = first := by rw [List.length_take]; omega
    have hl2 : (r.queued.drop first).length = second := by rw [List.length_drop]; omega
    obtain ⟨u1, ws1, g1, g2⟩ := lookupTable_ok S t (r.queued.take first) [] (trivialTRLWEZero N) (by omega) (by rw [hl1, f2])
    obtain ⟨t', k1, k2, k3⟩ := rot_ok (N := N) (m := (r.graph.levelSet r.live k).length) (cnt := 2 ^ second) (fun _ => hN)
      (t := vresize u1 (2 ^ second) (trivialTRLWEZero N)) (vresize_length _ _ _) (vresize_zero g2 hp2)
    obtain ⟨u2, ws2, m1, m2⟩ := lookupTable_ok S t' (r.queued.drop first) ws1 (trivialTRLWEZero N) (by omega) (by rw [hl2, k2])
    obtain ⟨w', s1, s2, s3⟩ := split_ok (S := S) hsn.nodup hi2 (weight := r.weight) (by rw [hwl]; exact hltn) m2
      (by omega) hN0 (decide ((r.numEval + 1) % r.bootFreq = 0))
    refine ⟨first, second, w', fun j => t.getD j (trivialTRLWEZero N), fun j => t'.getD j (trivialTRLWEZero N), d2, d3, hN, ?_,
      s2.trans hwl, ?_, ?_, ?_⟩
    · rw [hpre, d1, Res.bind_ok]
      dsimp only
      rw [shl1_ok (by omega), Res.bind_ok, shl1_ok (by omega), Res.bind_ok, f1, Res.bind_ok,
        show two [t, r.weight] = .ok (t, r.weight) from rfl, Res.bind_ok, g1, Res.bind_ok]
      dsimp only
      rw [k1, Res.bind_ok, show one [t'] = .ok t' from rfl, Res.bind_ok, m1, Res.bind_ok, if_neg hboot]
      dsimp only
      rw [s1, Res.bind_ok]
      rfl
    · intro x1 hx1
      dsimp only
      rw [List.getD_eq_getElem?_getD, f3 x1 hx1]; rfl
    · intro j hj
      dsimp only
      rw [List.getD_eq_getElem?_getD, k3 j hj]; rfl
    · intro q hq h h0
      rw [s3 q hq h]
      simp only [decide_eq_true_eq]

end Homfa
