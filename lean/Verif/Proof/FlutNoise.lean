import Verif.Spec.FlutNoise
import Verif.Proof.FlutInv
import Verif.Proof.BlockNoise

/-! The FLUT runner computes `FlutRun`; the errors of its weights are as stated there. -/

namespace Homfa

variable {N n l : Nat} {S : Scheme N n l}

theorem at_eq_ext (p : Poly N) (z : Int) : p.at z = ext p z := rfl

theorem mulX_eq (k : Int) (c : TRLWE N) : c.mulX k = rotT k c := rfl

theorem bitsOf_eq (k x : Nat) : bitsOf k x = wordOf k x := rfl

theorem mulX_zero (c : TRLWE N) : c.mulX 0 = c := by
  unfold TRLWE.mulX
  cases c with
  | mk a b =>
    congr 1
    · funext i; rw [Int.sub_zero]; exact ext_of_lt a i
    · funext i; rw [Int.sub_zero]; exact ext_of_lt b i

theorem ext_add_two (p : Poly N) (z : Int) : ext p (z - 2 * N) = ext p z := by
  rw [show z - 2 * (N : Int) = z - N - N by ring, ext_sub, ext_sub, neg_neg]

theorem frot_eq {m j : Nat} (y : TRLWE N) (h : j * m ≤ 2 * N) : frot m y j = y.mulX (-(j * m : Nat)) := by
  unfold frot
  by_cases hj : j = 0
  · subst hj
    rw [if_pos rfl, Nat.zero_mul]
    exact (mulX_zero y).symm
  · rw [if_neg hj]
    unfold rotT TRLWE.mulX
    have e : ∀ i : Fin N, (i : Int) - ((2 * N - j * m : Nat) : Int) = (i : Int) - -((j * m : Nat) : Int) - 2 * N := by
      intro i
      push_cast [Nat.cast_sub h]
      ring
    congr 1
    · funext i; unfold rot; rw [e i]; exact ext_add_two _ _
    · funext i; unfold rot; rw [e i]; exact ext_add_two _ _

theorem wordOf_or {f s x y : Nat} (hx : x < 2 ^ f) (hy : y < 2 ^ s) : wordOf (f + s) ((y <<< f) ||| x) = wordOf f x ++ wordOf s y := by
  have hxl : lsbIndex (wordOf f x) = x := lsbIndex_testBit _ _ hx
  have hyl : lsbIndex (wordOf s y) = y := lsbIndex_testBit _ _ hy
  have h := lsb_or (wordOf f x) (wordOf s y)
  rw [hxl, hyl, wordOf_length] at h
  rw [h, show f + s = (wordOf f x ++ wordOf s y).length by simp, wordOf_lsbIndex]

theorem fillPure_eq (K : Nat × Nat → Nat) (W : Nat → TRLWE N) (pairs : List (Nat × Nat)) :
    fillPure K W pairs (trivialTRLWEZero N) = TRLWE.sum (pairs.map fun p => (W p.1).mulX (K p)) := by
  unfold fillPure TRLWE.sum
  rw [List.foldl_map]
  rfl

theorem ext_sum (p q : Poly N) (z : Int) : ext (fun i => p i + q i) z = ext p z + ext q z := by
  unfold ext
  by_cases hN : 0 < N
  · rw [dif_pos hN, dif_pos hN, dif_pos hN]
    split
    · rfl
    · exact neg_add _ _
  · rw [dif_neg hN, dif_neg hN, dif_neg hN, add_zero]

theorem near_zero {x y : Torus} (h : Near 0 x y) : x = y := by
  unfold Near Torus.abs at h
  have : (x - y).toInt = 0 := by omega
  have h0 : x - y = 0#32 := BitVec.eq_of_toInt_eq (by rw [this]; rfl)
  exact sub_eq_zero.1 h0

theorem phase_sum (cs : List (TRLWE N)) (key : Fin N → Torus) (i : Fin N) :
    (TRLWE.sum cs).phase key i = (cs.map fun c => c.phase key i).sum := by
  have h : ∀ t : TRLWE N, (cs.foldl TRLWE.add t).phase key i = t.phase key i + (cs.map fun c => c.phase key i).sum := by
    induction cs with
    | nil => intro t; simp
    | cons c cs ih =>
      intro t
      rw [List.foldl_cons, ih, phase_add, List.map_cons, List.sum_cons]
      dsimp only
      rw [add_assoc]
  unfold TRLWE.sum
  rw [h, show (trivialTRLWEZero N).phase key i = 0 from congrFun (phase_trivial (fun _ => 0#32) _) _, zero_add]

theorem list_sum_add {ι : Type} (L : List ι) (f g : ι → Torus) : (L.map fun x => f x + g x).sum = (L.map f).sum + (L.map g).sum := by
  induction L with
  | nil => simp
  | cons x L ih => rw [List.map_cons, List.map_cons, List.map_cons, List.sum_cons, List.sum_cons, List.sum_cons, ih]; abel

/-- the packed weight of `q` -/
theorem FlutBlock.unpacked_phase (B : FlutBlock N l) (hlen : B.second ≤ B.letters.length)
    (hN : B.after.length * 2 ^ B.second ≤ N) (hnd : B.before.Nodup)
    (hreach : ∀ p ∈ B.before, ∀ w : List Bool, w.length = B.letters.length → B.d.run p w ∈ B.after) {v : List Bool}
    (hv : B.letters.length = v.length) {cur : Nat} (hcur : cur ∈ B.before) {E : Nat → Poly N}
    (hW : ∀ p ∈ B.before, ∀ i : Fin N, (B.weight p).phase S.sk.lvl1 i = (if i.val = 0 then half (decide (p = cur)) else 0) + E p i)
    {q : Nat} (hq : q ∈ B.after) (hy : lsbIndex (v.drop B.first) < 2 ^ B.second) :
    (B.unpacked S hN hq).phase S.sk.lvl1 = half (decide (q = B.d.run cur v)) + (B.errors S hN v E hq hy).sum := by
  have hl1 : (v.take B.first).length = B.first := by rw [List.length_take, ← hv]; unfold FlutBlock.first; omega
  have hl2 : (v.drop B.first).length = B.second := by rw [List.length_drop, ← hv]; unfold FlutBlock.first; omega
  have hc1 : (B.letters.take B.first).length = (v.take B.first).length := by rw [List.length_take, List.length_take, hv]
  have hc2 : (B.letters.drop B.first).length = (v.drop B.first).length := by rw [List.length_drop, List.length_drop, hv]
  have hx1 : lsbIndex (v.take B.first) < 2 ^ B.first := by have := lsbIndex_lt (v.take B.first); rwa [hl1] at this
  have hqi : B.after.idxOf q < B.after.length := List.idxOf_lt_length_iff.2 hq
  have hpk : lsbIndex (v.drop B.first) * B.after.length + B.after.idxOf q < N := Nat.lt_of_lt_of_le (pack_lt hqi hy) hN
  have hqN : B.after.idxOf q < N := by omega
  unfold FlutBlock.unpacked
  rw [phase_sampleExtract]
  unfold FlutBlock.packed
  rw [lutTree_phase _ _ (v.drop B.first) hc2]
  have e2 : (B.entry2 S (lsbIndex (v.drop B.first))).phase S.sk.lvl1 ⟨B.after.idxOf q, hqN⟩ =
      (B.firstLookup S).phase S.sk.lvl1 ⟨_, hpk⟩ := by
    unfold FlutBlock.entry2
    rw [← frot_eq _ (by omega)]
    exact frot_phase _ hqN hpk
  rw [e2]
  unfold FlutBlock.firstLookup
  rw [lutTree_phase _ _ (v.take B.first) hc1]
  -- the entry of the first table
  have hbits : bitsOf B.first (lsbIndex (v.take B.first)) = v.take B.first := by
    have := wordOf_lsbIndex (v.take B.first)
    rwa [hl1] at this
  have hix : ∀ st ∈ B.before, ∀ i < 2 ^ B.second,
      B.after.idxOf (B.d.run st (v.take B.first ++ bitsOf B.second i)) < B.after.length := by
    intro st hst i _
    refine List.idxOf_lt_length_iff.2 (hreach st hst _ ?_)
    rw [List.length_append, hl1, bitsOf_eq, wordOf_length]
    unfold FlutBlock.first; omega
  have e1 : (B.entry (lsbIndex (v.take B.first))).phase S.sk.lvl1 ⟨_, hpk⟩ = half (decide (q = B.d.run cur v)) +
      (B.pairs.map fun p => (E p.1).at ((lsbIndex (v.drop B.first) * B.after.length + B.after.idxOf q : Nat) - B.place (v.take B.first) p)).sum := by
    have hmsg := fill_near (S := S) hnd hcur (m := B.after.length) (cnt2 := 2 ^ B.second) (e := 0)
      (fun p => B.after.idxOf (B.d.run p.1 (v.take B.first ++ bitsOf B.second p.2))) hix hN
      (fun st => trivialTRLWE fun i => if i.val = 0 then half (decide (st = cur)) else 0)
      (by intro st _ i; rw [phase_trivial]; exact Near.refl _) hy hqi hpk
    rw [Nat.mul_zero] at hmsg
    have hmsg := near_zero hmsg
    rw [fillPure_phase, show (trivialTRLWEZero N).phase S.sk.lvl1 ⟨_, hpk⟩ = 0 from congrFun (phase_trivial (fun _ => 0#32) _) _, zero_add] at hmsg
    have hdec : decide (B.after.idxOf (B.d.run cur (v.take B.first ++ bitsOf B.second (lsbIndex (v.drop B.first)))) = B.after.idxOf q) =
        decide (q = B.d.run cur v) := by
      have hb2 : bitsOf B.second (lsbIndex (v.drop B.first)) = v.drop B.first := by
        have := wordOf_lsbIndex (v.drop B.first)
        rwa [hl2] at this
      rw [hb2, List.take_append_drop]
      refine decide_eq_decide.2 ⟨fun h => ((List.idxOf_inj (hreach cur hcur v hv.symm)).1 h).symm, fun h => by rw [h]⟩
    dsimp only at hmsg
    rw [hdec] at hmsg
    rw [← hmsg]
    unfold FlutBlock.entry
    rw [hbits, ← fillPure_eq, fillPure_phase, show (trivialTRLWEZero N).phase S.sk.lvl1 ⟨_, hpk⟩ = 0 from congrFun (phase_trivial (fun _ => 0#32) _) _, zero_add,
      show B.pairs = B.before.flatMap (fun st => (List.range (2 ^ B.second)).map fun i => (st, i)) from rfl, ← list_sum_add]
    refine congrArg List.sum (List.map_congr_left fun p hp => ?_)
    rw [phase_trivial, at_eq_ext]
    have hfun : (B.weight p.1).phase S.sk.lvl1 = fun i => (if i.val = 0 then half (decide (p.1 = cur)) else 0) + E p.1 i :=
      funext (hW p.1 (mem_pairs.1 hp).1)
    rw [hfun, ext_sum]
    rfl
  rw [e1]
  unfold FlutBlock.errors
  dsimp only
  rw [List.sum_append, List.sum_append]
  abel

/-- the phases of the weights of a run -/
theorem FlutRun.phase {hN0 : 0 < N} {d : Spec.Dfa Nat} {max boot k : Nat} {cu : List (Gsw l N)} {u : List Bool} {W : Nat → TRLWE N}
    {E : Nat → Poly N} (h : FlutRun S hN0 d max boot k cu u W E) {L : List Nat} (hL : IsLive d u.length L) {q : Nat} (hq : q ∈ L) (i : Fin N) :
    (W q).phase S.sk.lvl1 i = (if i.val = 0 then half (decide (q = d.run d.start u)) else 0) + E q i := by
  induction h generalizing L q i with
  | @start W h0 =>
    obtain ⟨w, hw, rfl⟩ := (hL.2 q).1 hq
    have hw : w = [] := List.eq_nil_of_length_eq_zero hw
    subst hw
    rw [List.foldl_nil, h0, phase_trivial, show (0#32 : Torus) = 0 from rfl, add_zero]
    have e : half (decide (d.start = d.run d.start [])) = mu2 := by rw [decide_eq_true (show d.start = d.run d.start [] from rfl)]; rfl
    rw [e]
  | @keep k cu u v W' E E' B hrun hd hv0 hlen h0 h1 h2 hN hy _ hW' hE' ih =>
    rw [List.length_append] at hL
    have e := hL.unique h1
    subst e
    have hph := B.unpacked_phase (S := S) (by rw [h2, hlen]; omega) hN (SSorted.nodup h0.1) (by
      intro p hp w hw
      obtain ⟨x, hx, rfl⟩ := (h0.2 p).1 hp
      refine (h1.2 _).2 ⟨x ++ w, by rw [List.length_append, hx, hw, hlen], ?_⟩
      rw [List.foldl_append, hd]; rfl) hlen h0.run_mem (E := E) (fun p hp i => ih h0 hp i) hq hy
    rw [hd, show d.run (d.run d.start u) v = d.run d.start (u ++ v) from (List.foldl_append).symm] at hph
    rw [hW' q hq, hE' q hq i]
    unfold Scheme.convertError
    by_cases hi : i.val = 0
    · rw [if_pos hi, if_pos hi, if_pos hi, hph]; abel
    · rw [if_neg hi, if_neg hi, if_neg hi]; abel
  | @boot k cu u v W' E E' B hrun hd hv0 hlen h0 h1 h2 hN _ hW' hE' ih =>
    rw [List.length_append] at hL
    have e := hL.unique h1
    subst e
    rw [hW' q hq, hE' q hq i]
    unfold Scheme.convertError
    by_cases hi : i.val = 0
    · rw [if_pos hi, if_pos hi, if_pos hi]; abel
    · rw [if_neg hi, if_neg hi, if_neg hi]; abel

/-- The runner has processed `u` and holds `v` in its queue. -/
structure FXInv (S : Scheme N n l) (hN0 : 0 < N) (g : Graph) (max qs boot : Nat) (r : Flut N l) (cu : List (Gsw l N)) (u v : List Bool) :
    Prop where
  graph : r.graph = g
  maxSecond : r.maxSecond = max
  queueSize : r.queueSize = qs
  bootFreq : r.bootFreq = boot
  memo : ∀ d ≤ qs, ∃ row, r.memo[d]? = some row ∧ MemoOk g d row
  wlen : r.weight.length = g.size
  queued : r.queued.length = v.length
  live : r.live = g.levelSet [g.init] u.length
  run : ∃ W E, FlutRun S hN0 g.dfa max boot r.numEval cu u W E ∧ ∀ q ∈ r.live, r.weight[q]? = some (W q)

theorem fxinv_make {hN0 : 0 < N} {g : Graph} (hg : g.WF) (max qs boot : Nat) (hqs : qs < 31) :
    ∃ r : Flut N l, Flut.make g max qs boot false = .ok r ∧ r.queued = [] ∧ FXInv S hN0 g max qs boot r [] [] [] := by
  obtain ⟨r, h1, h2, h3, h4, h5, h6, h7, h8, h9, h10, _, h11⟩ := flut_make (N := N) (l := l) hg max qs boot hqs
  refine ⟨r, h1, h6, h2, h3, h4, h5, h10, h9, by rw [h6]; rfl, by rw [h7]; rfl, fun _ => (trivialTRLWEZero N).setB0 mu2, fun _ _ => 0#32, ?_, ?_⟩
  · rw [h8]
    exact .start rfl
  · intro q hq
    rw [h7, List.mem_singleton] at hq
    subst hq
    exact h11

theorem fentry_eq {g : Graph} {next live : List Nat} {k first second : Nat} (hk : first + second = k) {W : Nat → TRLWE N} {cs : List (Gsw l N)}
    (hcs : cs.length = k) {x : Nat} (hx : x < 2 ^ first) :
    fentry g next k first (2 ^ second) live W x = (FlutBlock.mk g.dfa live next second cs W).entry x := by
  have hf : (FlutBlock.mk g.dfa live next second cs W).first = first := by unfold FlutBlock.first; dsimp only; omega
  unfold fentry FlutBlock.entry
  rw [fillPure_eq, hf]
  refine congrArg TRLWE.sum (List.map_congr_left fun p hp => ?_)
  have hy := (mem_pairs.1 hp).2
  dsimp only
  congr 2
  unfold FlutBlock.place
  dsimp only
  congr 2
  unfold fdst
  rw [← hk, wordOf_or hx hy]
  rfl

theorem fpacked_eq {g : Graph} {next live : List Nat} {k first second : Nat} (hk : first + second = k) (hN : next.length * 2 ^ second ≤ N)
    {W : Nat → TRLWE N} {cs : List (Gsw l N)} (hcs : cs.length = k) {T1 T2 : Nat → TRLWE N}
    (hT1 : ∀ x1 < 2 ^ first, T1 x1 = fentry g next k first (2 ^ second) live W x1)
    (hT2 : ∀ j < 2 ^ second, T2 j = frot next.length (lutPure S (cs.take first) T1) j) :
    lutPure S (cs.drop first) T2 = (FlutBlock.mk g.dfa live next second cs W).packed S := by
  have hf : (FlutBlock.mk g.dfa live next second cs W).first = first := by unfold FlutBlock.first; dsimp only; omega
  have h1 : lutPure S (cs.take first) T1 = (FlutBlock.mk g.dfa live next second cs W).firstLookup S := by
    unfold FlutBlock.firstLookup
    rw [hf, ← lutPure_eq]
    refine lutPure_congr S _ fun j hj => ?_
    rw [List.length_take, Nat.min_eq_left (by omega)] at hj
    rw [hT1 j hj, fentry_eq hk hcs hj]
  unfold FlutBlock.packed
  rw [hf, ← lutPure_eq]
  refine lutPure_congr S _ fun j hj => ?_
  rw [List.length_drop, show cs.length - first = second by omega] at hj
  rw [hT2 j hj, h1]
  unfold FlutBlock.entry2
  dsimp only
  rw [frot_eq]
  have := Nat.mul_le_mul_left next.length (Nat.le_of_lt hj)
  rw [Nat.mul_comm] at this
  omega

theorem fxinv_eval {hN0 : 0 < N} {g : Graph} (hg : g.WF) {max qs boot : Nat} (hqs : qs < 31) (hmax : max < 31) (hmaxN : 2 ^ max ≤ N)
    (hL : ∀ d, (g.levelSet [g.init] d).length < 2 ^ max) (hboot : 0 < boot) {r : Flut N l} {cu : List (Gsw l N)} {u v : List Bool}
    (h : FXInv S hN0 g max qs boot r cu u v) (hv : v.length ≤ qs) :
    ∃ r', r.evalQueued S = .ok r' ∧ r'.queued = [] ∧ FXInv S hN0 g max qs boot r' (cu ++ r.queued) (u ++ v) [] := by
  by_cases hv0 : v = []
  · subst hv0
    have hq : r.queued = [] := List.eq_nil_of_length_eq_zero h.queued
    rw [List.append_nil, hq, List.append_nil]
    exact ⟨r, flut_eval_empty S hq, hq, h⟩
  · have hvl : v.length ≠ 0 := fun hh => hv0 (List.eq_nil_of_length_eq_zero hh)
    have hi : ∀ q ∈ [g.init], q < g.size := by intro q hq; simp at hq; subst hq; exact hg.init_lt
    have hs : SSorted r.live := by rw [h.live]; exact Graph.sorted_levelSet (by simp) _
    have hlt : ∀ q ∈ r.live, q < r.graph.size := by rw [h.live, h.graph]; exact Graph.levelSet_lt hi _
    have hne : r.live ≠ [] := by rw [h.live]; exact levelSet_ne_nil hg _
    obtain ⟨row, hrow, hrow'⟩ := h.memo v.length hv
    have hnext : r.graph.levelSet r.live v.length = g.levelSet [g.init] (u ++ v).length := by
      rw [h.graph, h.live, Graph.levelSet_add, List.length_append]
    obtain ⟨W, E, hrun, hW⟩ := h.run
    obtain ⟨_, e2⟩ := flut_eval_ok S (r := r) (by rw [h.graph]; exact hg) hvl (by omega) h.queued hrow
      (by rw [h.graph]; exact hrow') hs hlt hne (by rw [h.maxSecond]; exact hmax) (by rw [h.maxSecond]; exact hmaxN)
      (by rw [h.bootFreq]; omega) (by rw [h.wlen, h.graph]) (W := W) hW
    rw [hnext, h.maxSecond, h.graph] at e2
    obtain ⟨first, second, w', T1, T2, k1, k2, k3, k4, k5, k6, k7, k8⟩ := e2 (hL _)
    have hpk := fpacked_eq (S := S) k1 k3 h.queued k6 k7
    let B : FlutBlock N l := ⟨g.dfa, r.live, g.levelSet [g.init] (u ++ v).length, second, r.queued, W⟩
    have hf : B.first = first := by unfold FlutBlock.first; show r.queued.length - second = first; rw [h.queued]; omega
    have hlive0 : IsLive g.dfa u.length B.before := by show IsLive g.dfa u.length r.live; rw [h.live]; exact isLive_levelSet hg _
    have hlive1 : IsLive g.dfa (u.length + v.length) B.after := by
      show IsLive g.dfa (u.length + v.length) (g.levelSet [g.init] (u ++ v).length)
      rw [List.length_append]; exact isLive_levelSet hg _
    have hidx : ∀ q ∈ B.after, B.after.idxOf q < N := by
      intro q hq
      have a1 := List.idxOf_lt_length_iff.2 hq
      have a2 : B.after.length * 1 ≤ B.after.length * 2 ^ second := Nat.mul_le_mul_left _ (Nat.two_pow_pos second)
      have a3 : B.after.length * 2 ^ second ≤ N := k3
      omega
    have hex : ∃ W' E', FlutRun S hN0 g.dfa max boot (r.numEval + 1) (cu ++ r.queued) (u ++ v) W' E' ∧
        ∀ q ∈ g.levelSet [g.init] (u ++ v).length, w'[q]? = some (W' q) := by
      by_cases hb : (r.numEval + 1) % boot = 0
      · refine ⟨fun q => if h : q ∈ B.after then S.tlwe2trlwe (S.refreshLwe hN0 (B.unpacked S k3 h)) else trivialTRLWEZero N,
          fun q i => if h : q ∈ B.after then (if i.val = 0 then (S.refreshLwe hN0 (B.unpacked S k3 h)).phase S.sk.lvl1 -
            half (decide (q = g.dfa.run g.dfa.start (u ++ v))) else 0) + S.convertError (S.refreshLwe hN0 (B.unpacked S k3 h)) i else 0, ?_, ?_⟩
        · exact FlutRun.boot (B := B) hrun rfl hv0 h.queued hlive0 hlive1 k2 k3 hb (fun q hq => dif_pos hq) (fun q hq i => dif_pos hq)
        · intro q hq
          rw [k8 q hq (hidx q hq) hN0, h.bootFreq, if_pos hb, hpk]
          beta_reduce
          rw [dif_pos (show q ∈ B.after from hq)]
          rfl
      · have hy : lsbIndex (v.drop B.first) < 2 ^ B.second := by
          have := lsbIndex_lt (v.drop B.first)
          rw [List.length_drop, hf, show v.length - first = second by omega] at this
          show lsbIndex (v.drop B.first) < 2 ^ second
          rw [hf]; exact this
        refine ⟨fun q => if h : q ∈ B.after then S.tlwe2trlwe (B.unpacked S k3 h) else trivialTRLWEZero N,
          fun q i => if h : q ∈ B.after then (if i.val = 0 then (B.errors S k3 v E h hy).sum else 0) +
            S.convertError (B.unpacked S k3 h) i else 0, ?_, ?_⟩
        · exact FlutRun.keep (B := B) hrun rfl hv0 h.queued hlive0 hlive1 k2 k3 hy hb (fun q hq => dif_pos hq) (fun q hq i => dif_pos hq)
        · intro q hq
          rw [k8 q hq (hidx q hq) hN0, h.bootFreq, if_neg hb, hpk]
          beta_reduce
          rw [dif_pos (show q ∈ B.after from hq)]
          rfl
    exact ⟨_, k4, rfl, rfl, rfl, h.queueSize, h.bootFreq, h.memo, k5, rfl, rfl, hex⟩

theorem fxinv_one {hN0 : 0 < N} {g : Graph} (hg : g.WF) {max qs boot : Nat} (hqs : qs < 31) (hmax : max < 31) (hmaxN : 2 ^ max ≤ N)
    (hL : ∀ d, (g.levelSet [g.init] d).length < 2 ^ max) (hboot : 0 < boot) {r : Flut N l} {cu : List (Gsw l N)} {u v : List Bool}
    (h : FXInv S hN0 g max qs boot r cu u v) (hv : v.length < qs) (c : Gsw l N) (b : Bool) :
    ∃ r' cu' u' v', r.evalOne S c = .ok r' ∧ FXInv S hN0 g max qs boot r' cu' u' v' ∧ cu' ++ r'.queued = cu ++ r.queued ++ [c] ∧
      u' ++ v' = u ++ v ++ [b] ∧ v'.length < qs := by
  unfold Flut.evalOne
  dsimp only
  have hinv : FXInv S hN0 g max qs boot { r with queued := r.queued ++ [c] } cu u (v ++ [b]) :=
    ⟨h.graph, h.maxSecond, h.queueSize, h.bootFreq, h.memo, h.wlen, by simp [h.queued], h.live, h.run⟩
  by_cases hlt : (r.queued ++ [c]).length < r.queueSize
  · rw [if_pos hlt]
    refine ⟨_, cu, u, v ++ [b], rfl, hinv, by simp, by simp, ?_⟩
    rw [List.length_append, h.queued, h.queueSize] at hlt
    simpa using hlt
  · rw [if_neg hlt]
    obtain ⟨r', h1, h2, h3⟩ := fxinv_eval hg hqs hmax hmaxN hL hboot hinv (by simpa using hv)
    exact ⟨r', _, _, [], h1, h3, by rw [h2]; simp, by simp, by simp; omega⟩

/-- the sum over the live accepting states -/
theorem flut_sum_eq {g : Graph} (hg : g.WF) {weight : List (TRLWE N)} {W : Nat → TRLWE N} (live : List Nat) (hlt : ∀ q ∈ live, q < g.size)
    (hW : ∀ q ∈ live, weight[q]? = some (W q)) (acc : TRLWE N) :
    live.foldlM (fun (acc : TRLWE N) st => do
        let f ← g.isFinalState st
        if f then do
          let w ← vat weight st
          pure (acc.add w)
        else pure acc) acc = .ok (((live.filter g.fin).map W).foldl TRLWE.add acc) := by
  induction live generalizing acc with
  | nil => rfl
  | cons q live ih =>
    have ih' := fun acc => ih (fun p hp => hlt p (by simp [hp])) (fun p hp => hW p (by simp [hp])) acc
    rw [List.foldlM_cons, hg.isFinalState_ok (hlt q (by simp)), Res.bind_ok]
    cases hf : g.fin q
    · simp only [Bool.false_eq_true, if_false]
      rw [Res.pure_eq, Res.bind_ok, ih', List.filter_cons_of_neg (by simp [hf])]
    · simp only [if_true]
      rw [vat_eq_ok.2 (hW q (by simp)), Res.bind_ok, Res.pure_eq, Res.bind_ok, ih', List.filter_cons_of_pos hf, List.map_cons, List.foldl_cons]

theorem fxinv_result {hN0 : 0 < N} {g : Graph} (hg : g.WF) {max qs boot : Nat} (hqs : qs < 31) (hmax : max < 31) (hmaxN : 2 ^ max ≤ N)
    (hL : ∀ d, (g.levelSet [g.init] d).length < 2 ^ max) (hboot : 0 < boot) {r : Flut N l} {cu : List (Gsw l N)} {u v : List Bool}
    (h : FXInv S hN0 g max qs boot r cu u v) (hv : v.length < qs) :
    ∃ c r' W E L, r.result S = .ok (c, r') ∧ r'.queued = [] ∧ FXInv S hN0 g max qs boot r' (cu ++ r.queued) (u ++ v) [] ∧
      FlutRun S hN0 g.dfa max boot r'.numEval (cu ++ r.queued) (u ++ v) W E ∧ IsLive g.dfa (u ++ v).length L ∧
      c = sampleExtract (TRLWE.sum ((L.filter g.dfa.accept).map W)) ⟨0, hN0⟩ := by
  obtain ⟨r', h1, h2, h3⟩ := fxinv_eval hg hqs hmax hmaxN hL hboot h (by omega)
  obtain ⟨W, E, hrun, hW⟩ := h3.run
  have hi : ∀ q ∈ [g.init], q < g.size := by intro q hq; simp at hq; subst hq; exact hg.init_lt
  have hlt : ∀ q ∈ r'.live, q < g.size := by rw [h3.live]; exact Graph.levelSet_lt hi _
  refine ⟨_, r', W, E, r'.live, ?_, h2, h3, hrun, by rw [h3.live]; exact isLive_levelSet hg _, rfl⟩
  unfold Flut.result
  rw [h1, Res.bind_ok, h3.graph, flut_sum_eq hg r'.live hlt hW, Res.bind_ok, sampleExtractAt_ok hN0]
  rfl

/-- the phase of the sum of the weights of the accepting states -/
theorem flutOut_phase {hN0 : 0 < N} {d : Spec.Dfa Nat} {max boot k : Nat} {cu : List (Gsw l N)} {u : List Bool} {W : Nat → TRLWE N}
    {E : Nat → Poly N} (h : FlutRun S hN0 d max boot k cu u W E) {L : List Nat} (hL : IsLive d u.length L) :
    (sampleExtract (TRLWE.sum ((L.filter d.accept).map W)) ⟨0, hN0⟩).phase S.sk.lvl1 =
      half (d.accepts u) + ((L.filter d.accept).map fun q => E q ⟨0, hN0⟩).sum := by
  rw [phase_sampleExtract, phase_sum, List.map_map]
  have h1 : ((L.filter d.accept).map ((fun c => c.phase S.sk.lvl1 ⟨0, hN0⟩) ∘ W)) =
      (L.filter d.accept).map fun q => half (decide (q = d.run d.start u)) + E q ⟨0, hN0⟩ := by
    refine List.map_congr_left fun q hq => ?_
    show (W q).phase S.sk.lvl1 ⟨0, hN0⟩ = _
    rw [h.phase hL (List.mem_of_mem_filter hq), if_pos rfl]
  rw [h1, list_sum_add]
  congr 1
  unfold Spec.Dfa.accepts
  cases hf : d.accept (d.run d.start u)
  · refine List.sum_eq_zero fun z hz => ?_
    obtain ⟨q, hq, rfl⟩ := List.mem_map.1 hz
    have : q ≠ d.run d.start u := by
      rintro rfl
      have := List.of_mem_filter hq
      rw [hf] at this; cases this
    rw [decide_eq_false this]; rfl
  · rw [sum_single ((SSorted.nodup hL.1).filter _) (List.mem_filter.2 ⟨hL.run_mem, hf⟩) (fun q => half (decide (q = d.run d.start u)))
      (fun q _ hne => by rw [decide_eq_false hne]; rfl), decide_eq_true rfl]

end Homfa
