import Verif.Model.Online1
import Verif.Proof.Flut

/-! The first online runner. -/

namespace Homfa

variable {N n l : Nat} {S : Scheme N n l} {δ : Noise} {Enc : Gsw l N → Bool → Prop}

theorem sumTask_run {weight : List (TRLWE N)} (W : Nat → TRLWE N) (ps : List Nat) (h : ∀ p ∈ ps, weight[p]? = some (W p))
    (acc : TRLWE N) (k : TRLWE N → Prog (TRLWE N)) (w : List (TRLWE N)) :
    (sumTask ps acc k).run [w, weight] =
      (k (ps.foldl (fun acc p => (acc.add (W p)).add (trivialTRLWE8 N)) acc)).run [w, weight] := by
  induction ps generalizing acc with
  | nil => rfl
  | cons p ps ih =>
    rw [sumTask, Prog.run_read1 (h p (by simp)), ih (fun q hq => h q (by simp [hq]))]
    rfl

theorem setB0_const_phase (x : Torus) (key : Fin N → Torus) (i : Fin N) (hi : i.val = 0) :
    ((trivialTRLWEZero N).setB0 x).phase key i = x := by
  have : (trivialTRLWEZero N).setB0 x = trivialTRLWE (fun i => if i.val = 0 then x else 0#32) := rfl
  rw [this, phase_trivial, if_pos hi]

/-- the sum over the parents -/
theorem sum_near {key : Fin N → Torus} {W : Nat → TRLWE N} {e cur : Nat} (i : Fin N) (hi : i.val = 0) (ps : List Nat) (hnd : ps.Nodup)
    (h : ∀ p ∈ ps, Near e ((W p).phase key i) (eighth (decide (p = cur)))) (acc : TRLWE N) :
    Near (ps.length * e) ((ps.foldl (fun acc p => (acc.add (W p)).add (trivialTRLWE8 N)) acc).phase key i)
      (acc.phase key i + if cur ∈ ps then mu4 else 0) := by
  induction ps generalizing acc with
  | nil => simpa using Near.rfl'
  | cons p ps ih =>
    rw [List.nodup_cons] at hnd
    have ih' := ih hnd.2 (fun q hq => h q (by simp [hq])) ((acc.add (W p)).add (trivialTRLWE8 N))
    rw [List.foldl_cons]
    have h8 : (trivialTRLWE8 N).phase key i = mu8 := setB0_const_phase _ _ _ hi
    rw [phase_add] at ih'
    dsimp only at ih'
    rw [phase_add] at ih'
    dsimp only at ih'
    rw [h8] at ih'
    have hp := h p (by simp)
    have h3 : Near (0 + e + 0 + 0) (acc.phase key i + (W p).phase key i + mu8 + if cur ∈ ps then mu4 else 0)
        (acc.phase key i + eighth (decide (p = cur)) + mu8 + if cur ∈ ps then mu4 else 0) :=
      ((Near.rfl'.add hp).add Near.rfl').add Near.rfl'
    have heq : acc.phase key i + eighth (decide (p = cur)) + mu8 + (if cur ∈ ps then mu4 else 0) =
        acc.phase key i + if cur ∈ p :: ps then mu4 else 0 := by
      by_cases hc : p = cur
      · subst hc
        rw [decide_eq_true rfl, if_neg hnd.1, if_pos (by simp), add_zero, add_assoc]
        congr 1
      · rw [decide_eq_false hc]
        have : eighth false + mu8 = 0 := by decide
        rw [add_assoc (acc.phase key i), this, add_zero]
        simp [Ne.symm hc]
    rw [heq] at h3
    refine (ih'.trans h3).mono ?_
    rw [List.length_cons, Nat.add_mul]; omega

/-- the state and its error -/
structure OInv (S : Scheme N n l) (g : Graph) (E : Nat → Nat) (r : Online1 N) (w : List Bool) : Prop where
  graph : r.graph = g
  wlen : r.weight.length = g.size
  interval : r.interval = Nat.log g.size 8000
  num : r.numProcessed = w.length
  weight : ∀ q < g.size, ∃ x, r.weight[q]? = some x ∧ ∀ i : Fin N, i.val = 0 →
    Near (E (w.length % r.interval)) (x.phase S.sk.lvl1 i) (eighth (decide (q = w.foldl g.nx g.init)))

theorem online1_make {g : Graph} (hasKey : Bool) :
    (g.size ≤ 1 ∨ 8000 < g.size → Online1.make (N := N) g hasKey false = .error .assertFail) ∧
    (1 < g.size → g.size ≤ 8000 → hasKey = true →
      ∃ r : Online1 N, Online1.make g hasKey false = .ok r ∧ ∀ E, OInv S g E r []) := by
  obtain ⟨w, h1, h2, h3⟩ := foldlM_range_inv (fun k (w : List (TRLWE N)) => w.length = g.size ∧
      ∀ q < g.size, w[q]? = some (if q < k then (trivialTRLWEZero N).setB0 (eighth (decide (q = g.init))) else trivialTRLWEZero N))
    (f := fun (weight : List (TRLWE N)) st => do
      let w ← vat weight st
      vset weight st (if st = g.initialState then w.setB0 mu8 else w.setB0 (-mu8))) g.size
    (b := List.replicate g.size (trivialTRLWEZero N))
      ⟨by simp, by intro q hq; rw [List.getElem?_replicate, if_pos hq, if_neg (by omega)]⟩ (by
      rintro i w hi ⟨e1, e2⟩
      have hw := e2 i hi
      rw [if_neg (by omega)] at hw
      rw [vat_eq_ok.2 hw, Res.bind_ok, vset_lt (by omega)]
      refine ⟨_, rfl, by rw [List.length_set, e1], fun q hq => ?_⟩
      by_cases hqi : q = i
      · subst hqi
        rw [List.getElem?_set_self (by omega)]
        by_cases h : q = g.initialState
        · rw [if_pos h, if_pos (by omega), show decide (q = g.init) = true from decide_eq_true h]; rfl
        · rw [if_neg h, if_pos (by omega), show decide (q = g.init) = false from decide_eq_false h]; rfl
      · rw [List.getElem?_set_ne (Ne.symm hqi), e2 q hq]
        by_cases hk : q < i
        · rw [if_pos hk, if_pos (by omega)]
        · rw [if_neg hk, if_neg (by omega)])
  constructor
  · intro hsz
    unfold Online1.make
    cases hasKey
    · rfl
    · rw [cassert_true, Res.bind_ok, if_neg (by simp)]
      dsimp only
      rw [h1, Res.bind_ok]
      by_cases h : g.size ≤ 1
      · rw [decide_eq_false (by omega)]; rfl
      · rw [decide_eq_true (by omega), cassert_true, Res.bind_ok]
        have : Nat.log g.size 8000 = 0 := Nat.log_of_lt (by omega)
        rw [this]; rfl
  · intro hgt hle hk
    subst hk
    unfold Online1.make
    rw [cassert_true, Res.bind_ok, if_neg (by simp)]
    dsimp only
    have hlog : 0 < Nat.log g.size 8000 := Nat.log_pos (by omega) hle
    rw [h1, Res.bind_ok, decide_eq_true (by omega), cassert_true, Res.bind_ok, decide_eq_true (by omega), cassert_true, Res.bind_ok]
    refine ⟨_, rfl, fun E => ⟨rfl, h2, rfl, rfl, fun q hq => ?_⟩⟩
    have := h3 q hq
    rw [if_pos hq] at this
    refine ⟨_, this, fun i hi => ?_⟩
    rw [setB0_const_phase _ _ _ hi]
    exact Near.rfl'.mono (Nat.zero_le _)

theorem oinv_one (hS : S.Sound δ Enc) {g : Graph} (hg : g.WF) (hn : 1 < g.size) (hn2 : g.size ≤ 8000) (hN : 0 < N) {E : Nat → Nat}
    (hE0 : δ.br ≤ E 0) (hE : ∀ j, g.size * E j + δ.cmux ≤ E (j + 1))
    (hbud : E (Nat.log g.size 8000) + δ.ks + δ.ms < 2 ^ 29)
    {r : Online1 N} {w : List Bool} (h : OInv S g E r w) {c : Gsw l N} {b : Bool} (hc : Enc c b) :
    ∃ r', r.evalOne S c = .ok r' ∧ OInv S g E r' (w ++ [b]) := by
  have hlog : 0 < Nat.log g.size 8000 := Nat.log_pos (by omega) hn2
  have hwd : ∀ q < g.size, r.weight[q]? = some (r.weight.getD q (trivialTRLWEZero N)) := by
    intro q hq
    obtain ⟨x, hx, _⟩ := h.weight q hq
    rw [List.getD_eq_getElem?_getD, hx]; rfl
  have hwn : ∀ q < g.size, ∀ i : Fin N, i.val = 0 → Near (E (w.length % r.interval))
      ((r.weight.getD q (trivialTRLWEZero N)).phase S.sk.lvl1 i) (eighth (decide (q = w.foldl g.nx g.init))) := by
    intro q hq
    obtain ⟨x, hx, hp⟩ := h.weight q hq
    rw [List.getD_eq_getElem?_getD, hx]
    exact hp
  have hrun : w.foldl g.nx g.init < g.size := hg.run_lt hg.init_lt w
  obtain ⟨w', e1, e2, e3, _⟩ := parFor_write (task := online1Task S g c) (rest := [r.weight])
    (P := fun q x => ∀ i : Fin N, i.val = 0 → Near (g.size * E (w.length % r.interval) + δ.cmux) (x.phase S.sk.lvl1 i)
      (eighth (decide (q = (w ++ [b]).foldl g.nx g.init))))
    (w0 := List.replicate r.weight.length (trivialTRLWEZero N)) g.allStates List.nodup_range (by
      intro q hq v hv _
      have hq' : q < g.size := List.mem_range.1 hq
      have hlt : ∀ b, ∀ p ∈ (List.range g.size).filter (fun p => decide (g.nx p b = q)), p < g.size := by
        intro b p hp
        rw [List.mem_filter, List.mem_range] at hp
        exact hp.1
      have hrun0 : ∀ b k, (sumTask ((List.range g.size).filter (fun p => decide (g.nx p b = q))) (trivialTRLWEMinus8 N) k).run [v, r.weight] =
          (k (((List.range g.size).filter (fun p => decide (g.nx p b = q))).foldl (fun acc p =>
            (acc.add (r.weight.getD p (trivialTRLWEZero N))).add (trivialTRLWE8 N)) (trivialTRLWEMinus8 N))).run [v, r.weight] :=
        fun b k => sumTask_run _ _ (fun p hp => hwd p (hlt b p hp)) _ _ _
      refine ⟨S.cmux c
        (((List.range g.size).filter (fun p => decide (g.nx p true = q))).foldl (fun acc p =>
            (acc.add (r.weight.getD p (trivialTRLWEZero N))).add (trivialTRLWE8 N)) (trivialTRLWEMinus8 N))
        (((List.range g.size).filter (fun p => decide (g.nx p false = q))).foldl (fun acc p =>
            (acc.add (r.weight.getD p (trivialTRLWEZero N))).add (trivialTRLWE8 N)) (trivialTRLWEMinus8 N)), ?_, ?_⟩
      · intro i hi
        have hsum : ∀ b, Near (g.size * E (w.length % r.interval)) ((((List.range g.size).filter (fun p => decide (g.nx p b = q))).foldl (fun acc p =>
            (acc.add (r.weight.getD p (trivialTRLWEZero N))).add (trivialTRLWE8 N)) (trivialTRLWEMinus8 N)).phase S.sk.lvl1 i)
            (eighth (decide (q = (w ++ [b]).foldl g.nx g.init))) := by
          intro b
          have := sum_near (key := S.sk.lvl1) (W := fun q => r.weight.getD q (trivialTRLWEZero N)) (e := E (w.length % r.interval))
            (cur := w.foldl g.nx g.init) i hi
            ((List.range g.size).filter (fun p => decide (g.nx p b = q))) (List.nodup_range.filter _)
            (fun p hp => hwn p (hlt b p hp) i hi) (trivialTRLWEMinus8 N)
          have hm : (trivialTRLWEMinus8 N).phase S.sk.lvl1 i = -mu8 := setB0_const_phase _ _ _ hi
          rw [hm] at this
          have heq : (-mu8 + if w.foldl g.nx g.init ∈ (List.range g.size).filter (fun p => decide (g.nx p b = q)) then mu4 else 0) =
              eighth (decide (q = (w ++ [b]).foldl g.nx g.init)) := by
            rw [List.foldl_append]
            simp only [List.mem_filter, List.mem_range, hrun, true_and, decide_eq_true_eq, List.foldl_cons, List.foldl_nil]
            by_cases hcq : g.nx (w.foldl g.nx g.init) b = q
            · rw [if_pos hcq]; simp only [hcq.symm, decide_true]; decide
            · rw [if_neg hcq]; simp only [Ne.symm hcq, decide_false]; decide
          rw [heq] at this
          refine this.mono (Nat.mul_le_mul_right _ ?_)
          refine Nat.le_trans (List.length_filter_le _ _) ?_
          rw [List.length_range]
        have hcm := hS.cmux c b
          (((List.range g.size).filter (fun p => decide (g.nx p true = q))).foldl (fun acc p =>
            (acc.add (r.weight.getD p (trivialTRLWEZero N))).add (trivialTRLWE8 N)) (trivialTRLWEMinus8 N))
          (((List.range g.size).filter (fun p => decide (g.nx p false = q))).foldl (fun acc p =>
            (acc.add (r.weight.getD p (trivialTRLWEZero N))).add (trivialTRLWE8 N)) (trivialTRLWEMinus8 N)) i hc
        have hs := hsum b
        cases b
        · exact (hcm.trans hs).mono (by omega)
        · exact (hcm.trans hs).mono (by omega)
      · unfold online1Task
        rw [Prog.run_local _ (hg.prevStates_ok hq' false), Prog.run_local _ (hg.prevStates_ok hq' true), hrun0 false, hrun0 true,
          Prog.run_write0 (by rw [hv, List.length_replicate, h.wlen]; exact hq')]) (by
      intro q hq
      have hq' : q < g.size := List.mem_range.1 hq
      rw [List.length_replicate, h.wlen]; exact hq')
  have hlen : w'.length = g.size := by rw [e2, List.length_replicate, h.wlen]
  have hw' : ∀ q < g.size, ∃ x, w'[q]? = some x ∧ ∀ i : Fin N, i.val = 0 → Near (E (w.length % r.interval + 1)) (x.phase S.sk.lvl1 i)
      (eighth (decide (q = (w ++ [b]).foldl g.nx g.init))) := by
    intro q hq
    obtain ⟨x, hx, hp⟩ := e3 q (List.mem_range.2 hq)
    exact ⟨x, hx, fun i hi => (hp i hi).mono (hE _)⟩
  unfold Online1.evalOne
  dsimp only
  rw [h.graph, e1, Res.bind_ok, show two [w', r.weight] = .ok (w', r.weight) from rfl, Res.bind_ok, if_neg (by rw [h.interval]; omega)]
  dsimp only
  have hlt := Nat.mod_lt w.length hlog
  have hmod : (w.length + 1) % r.interval = if w.length % r.interval + 1 = r.interval then 0 else w.length % r.interval + 1 := by
    rw [h.interval, Nat.add_mod]
    by_cases hb1 : Nat.log g.size 8000 = 1
    · rw [hb1]; simp [Nat.mod_one]
    · rw [Nat.mod_eq_of_lt (show 1 < Nat.log g.size 8000 by omega)]
      by_cases hb : w.length % Nat.log g.size 8000 + 1 = Nat.log g.size 8000
      · rw [if_pos hb, hb, Nat.mod_self]
      · rw [if_neg hb, Nat.mod_eq_of_lt (by omega)]
  rw [h.num]
  by_cases hb : w.length % r.interval + 1 = r.interval
  · rw [if_pos (by rw [hmod, if_pos hb])]
    obtain ⟨w'', f1, f2, f3, _⟩ := parFor_write (task := bootEighthTask S) (rest := [])
      (P := fun q x => ∀ i : Fin N, i.val = 0 → Near (E 0) (x.phase S.sk.lvl1 i) (eighth (decide (q = (w ++ [b]).foldl g.nx g.init))))
      (w0 := w') (List.range w'.length) List.nodup_range (by
        intro q hq v hv hvq
        have hq' : q < g.size := by rw [← hlen]; exact List.mem_range.1 hq
        obtain ⟨x, hx, hp⟩ := hw' q hq'
        rw [hx] at hvq
        obtain ⟨y, hy1, hy2⟩ := hS.bootEighth hN (hp ⟨0, hN⟩ rfl) (by rw [hb, h.interval]; omega)
        refine ⟨y, fun i hi => ?_, ?_⟩
        · have : i = ⟨0, hN⟩ := Fin.ext hi
          subst this
          exact hy2.mono hE0
        · unfold bootEighthTask
          rw [Prog.run_read0 hvq, Prog.run_local _ hy1, Prog.run_write0 (by rw [hv, hlen]; exact hq')])
        (by intro q hq; exact List.mem_range.1 hq)
    rw [f1, Res.bind_ok, show one [w''] = .ok w'' from rfl, Res.bind_ok]
    refine ⟨_, rfl, rfl, f2.trans hlen, h.interval, by simp, fun q hq => ?_⟩
    obtain ⟨x, hx, hp⟩ := f3 q (List.mem_range.2 (by rw [hlen]; exact hq))
    refine ⟨x, hx, ?_⟩
    dsimp only
    rw [List.length_append, List.length_singleton, hmod, if_pos hb]
    exact hp
  · rw [if_neg (by rw [hmod, if_neg hb]; omega)]
    refine ⟨_, rfl, rfl, hlen, h.interval, by simp, fun q hq => ?_⟩
    obtain ⟨x, hx, hp⟩ := hw' q hq
    refine ⟨x, hx, ?_⟩
    dsimp only
    rw [List.length_append, List.length_singleton, hmod, if_neg hb]
    exact hp

theorem online1_result {g : Graph} (hg : g.WF) {E : Nat → Nat} {r : Online1 N} {w : List Bool} (h : OInv S g E r w) :
    r.result = .error .assertFail := by
  obtain ⟨acc, h1, _⟩ := foldlM_range_inv (fun _ (_ : TRLWE N) => True)
    (f := fun (acc : TRLWE N) st => do
      let f ← r.graph.isFinalState st
      if f then do
        let w ← vat r.weight st
        pure ((acc.add w).add (trivialTRLWE8 N))
      else pure acc) r.graph.size (b := trivialTRLWEMinus8 N) trivial (by
      intro i acc hi _
      rw [h.graph] at hi ⊢
      rw [hg.isFinalState_ok hi, Res.bind_ok]
      cases g.fin i
      · exact ⟨acc, rfl, trivial⟩
      · obtain ⟨x, hx, _⟩ := h.weight i hi
        simp only [if_true]
        rw [vat_eq_ok.2 hx, Res.bind_ok]
        exact ⟨_, rfl, trivial⟩)
  unfold Online1.result
  rw [h1]; rfl

end Homfa
