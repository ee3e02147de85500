import Verif.Model.Runners
import Verif.Proof.Par
import Verif.Proof.Scheme
import Verif.Proof.Queries

/-! The OFFLINE / REVERSE runner: one step, and the invariant over a whole run. -/

namespace Homfa

variable {N n l : Nat}

theorem narrow_eq {x : Int} (h0 : -2 ^ 31 ≤ x) (h1 : x < 2 ^ 31) : narrow x = x := by
  unfold narrow
  rw [BitVec.toInt_ofInt]
  unfold Int.bmod
  dsimp only
  split <;> omega

theorem narrow_le {x : Int} (h0 : 0 ≤ x) : narrow x ≤ x := by
  unfold narrow
  rw [BitVec.toInt_ofInt]
  unfold Int.bmod
  dsimp only
  split <;> omega

theorem vresize_length {α : Type} (v : List α) (k : Nat) (x : α) : (vresize v k x).length = k := by
  unfold vresize
  rw [List.length_append, List.length_take, List.length_replicate]
  omega

/-- Element `q` of `weight` exists and its constant coefficient encodes `b` with error at most `e`. -/
def Holds (S : Scheme N n l) (hN : 0 < N) (e : Nat) (weight : List (TRLWE N)) (q : Nat) (b : Bool) : Prop :=
  ∃ w, weight[q]? = some w ∧ Near e (w.phase S.sk.lvl1 ⟨0, hN⟩) (half b)

theorem Holds.mono {S : Scheme N n l} {hN : 0 < N} {e e' : Nat} {weight : List (TRLWE N)} {q : Nat} {b : Bool}
    (h : Holds S hN e weight q b) (he : e ≤ e') : Holds S hN e' weight q b := by
  obtain ⟨w, h1, h2⟩ := h
  exact ⟨w, h1, h2.mono he⟩

theorem trivial_half_phase (b : Bool) (key : Fin N → Torus) (hN : 0 < N) :
    (if b then trivialTRLWE2 N else trivialTRLWEZero N).phase key ⟨0, hN⟩ = half b := by
  cases b
  · exact congrFun (phase_trivial (fun _ => 0#32) key) _
  · have := congrFun (phase_trivial (N := N) (fun i => if i.val = 0 then mu2 else 0#32) key) ⟨0, hN⟩
    exact this

theorem forall₂_split {α β : Type} {P : α → β → Prop} {xs xs' : List α} {ys ys' : List β} (h : xs.length = ys.length)
    (hf : List.Forall₂ P (xs ++ xs') (ys ++ ys')) : List.Forall₂ P xs ys ∧ List.Forall₂ P xs' ys' := by
  induction xs generalizing ys with
  | nil =>
    cases ys with
    | nil => exact ⟨.nil, hf⟩
    | cons y ys => simp at h
  | cons x xs ih =>
    cases ys with
    | nil => simp at h
    | cons y ys =>
      cases hf with
      | cons h1 h2 =>
        obtain ⟨h3, h4⟩ := ih (by simpa using h) h2
        exact ⟨.cons h1 h3, h4⟩

namespace Backstream

variable {S : Scheme N n l} {δ : Noise} {Enc : Gsw l N → Bool → Prop}

theorem make_weight {g : Graph} (hg : g.WF) (boot : Nat) (isz : Option Nat) :
    ∃ r : Backstream N, Backstream.make g boot isz true false = .ok r ∧
      r.graph = { g with statesAtDepth := match isz with
        | some k => (List.range k).map (g.levelSet [g.init])
        | none => g.statesAtDepth } ∧
      r.weight.length = g.size ∧ r.inputSize = isz ∧ r.bootInterval = boot ∧ r.numProcessed = 0 ∧ r.timer = [] ∧
      ∀ q < g.size, r.weight[q]? = some (if g.fin q then trivialTRLWE2 N else trivialTRLWEZero N) := by
  have key : ∀ g' : Graph, g'.WF → g'.size = g.size → (∀ q, g'.fin q = g.fin q) →
      ∃ r : Backstream N, ((List.range g'.size).foldlM (fun (weight : List (TRLWE N)) st => do
          let f ← g'.isFinalState st
          vset weight st (if f then trivialTRLWE2 N else trivialTRLWEZero N))
        (List.replicate g'.size (trivialTRLWEZero N)) >>= fun weight =>
        pure { graph := g', weight := weight, inputSize := isz, bootInterval := boot, numProcessed := 0,
               workspace := List.replicate g'.size (trivialTRLWEZero N), timer := [] }) = .ok r ∧
        r.graph = g' ∧
        r.weight.length = g.size ∧ r.inputSize = isz ∧ r.bootInterval = boot ∧ r.numProcessed = 0 ∧ r.timer = [] ∧
        ∀ q < g.size, r.weight[q]? = some (if g.fin q then trivialTRLWE2 N else trivialTRLWEZero N) := by
    intro g' hg' hsz hfin
    obtain ⟨w, hw, hlen, hI⟩ := foldlM_range_inv
      (I := fun k (w : List (TRLWE N)) => w.length = g'.size ∧
        ∀ q < k, w[q]? = some (if g'.fin q then trivialTRLWE2 N else trivialTRLWEZero N))
      (f := fun (weight : List (TRLWE N)) st => do
          let f ← g'.isFinalState st
          vset weight st (if f then trivialTRLWE2 N else trivialTRLWEZero N))
      g'.size (b := List.replicate g'.size (trivialTRLWEZero N)) ⟨by simp, by intro q hq; omega⟩ (by
        intro k w hk hI
        obtain ⟨hl, hI⟩ := hI
        rw [Graph.WF.isFinalState_ok hg' hk, Res.bind_ok, vset_lt (by omega)]
        refine ⟨_, rfl, by rw [List.length_set, hl], ?_⟩
        intro q hq
        by_cases h : k = q
        · subst h; rw [List.getElem?_set_self (by omega)]
        · rw [List.getElem?_set_ne h]; exact hI q (by omega))
    rw [hw]
    refine ⟨_, rfl, rfl, by rw [hlen, hsz], rfl, rfl, rfl, rfl, ?_⟩
    intro q hq
    rw [hI q (by omega), hfin]
  unfold Backstream.make
  rw [cassert_true, Res.bind_ok]
  simp only [Bool.false_eq_true, if_false]
  cases isz with
  | none =>
    exact key g hg rfl (fun _ => rfl)
  | some k =>
    simp only
    rw [Graph.reserve_ok hg k]
    exact key _ (hg.withDepth _) rfl (fun _ => rfl)

theorem make_ok {g : Graph} (hg : g.WF) (hN : 0 < N) (boot : Nat) (isz : Option Nat) :
    ∃ r : Backstream N, Backstream.make g boot isz true false = .ok r ∧
      r.graph = { g with statesAtDepth := match isz with
        | some k => (List.range k).map (g.levelSet [g.init])
        | none => g.statesAtDepth } ∧
      r.weight.length = g.size ∧ r.inputSize = isz ∧ r.bootInterval = boot ∧ r.numProcessed = 0 ∧ r.timer = [] ∧
      ∀ q < g.size, ∀ S : Scheme N n l, Holds S hN 0 r.weight q (g.fin q) := by
  obtain ⟨r, h1, h2, h3, h4, h5, h6, h7, h8⟩ := make_weight (N := N) hg boot isz
  refine ⟨r, h1, h2, h3, h4, h5, h6, h7, fun q hq S => ⟨_, h8 q hq, ?_⟩⟩
  rw [trivial_half_phase]
  exact Near.refl _

/-- One call of `eval`. -/
theorem eval_ok (hS : S.Sound δ Enc) (hN : 0 < N) {r : Backstream N} {sts : List Nat} {u : List Bool}
    {c : Gsw l N} {b : Bool} {e : Nat}
    (hst : evalStates r.graph r.inputSize r.numProcessed = .ok sts)
    (hnd : sts.Nodup) (hlt : ∀ q ∈ sts, q < r.graph.size) (hc : Enc c b)
    (hw : ∀ q ∈ sts, ∀ b, Holds S hN e r.weight (r.graph.nx q b) (r.graph.fin (u.foldl r.graph.nx (r.graph.nx q b))))
    (hb : 0 < r.bootInterval)
    (hbud : (r.numProcessed + 1) % r.bootInterval = 0 → e + δ.cmux + δ.ks + δ.ms < 2 ^ 30) :
    ∃ r', r.eval S c = .ok r' ∧ r'.graph = r.graph ∧ r'.inputSize = r.inputSize ∧ r'.bootInterval = r.bootInterval ∧
      r'.numProcessed = r.numProcessed + 1 ∧ r'.weight.length = r.graph.size ∧
      r'.timer = r.timer ++ (Target.cmux, sts.length) ::
        (if (r.numProcessed + 1) % r.bootInterval = 0 then [(Target.bootstrapping, sts.length)] else []) ∧
      ∀ q ∈ sts, Holds S hN (if (r.numProcessed + 1) % r.bootInterval = 0 then δ.br else e + δ.cmux) r'.weight q
        (r.graph.fin ((b :: u).foldl r.graph.nx q)) := by
  unfold Backstream.eval
  dsimp only
  rw [hst, Res.bind_ok]
  have hlen := vresize_length r.workspace r.graph.size (trivialTRLWEZero N)
  obtain ⟨w', h1, h2, h3, h4⟩ := parFor_write (task := backstreamTask S r.graph c) (rest := [r.weight])
    (P := fun q x => Near (e + δ.cmux) (x.phase S.sk.lvl1 ⟨0, hN⟩) (half (r.graph.fin ((b :: u).foldl r.graph.nx q))))
    (w0 := vresize r.workspace r.graph.size (trivialTRLWEZero N)) sts hnd (by
      intro q hq w hwlen _
      have hq' := hlt q hq
      obtain ⟨w0, hw0, hn0⟩ := hw q hq false
      obtain ⟨w1, hw1, hn1⟩ := hw q hq true
      refine ⟨S.cmux c w1 w0, ?_, ?_⟩
      · have hcm := hS.cmux c b w1 w0 ⟨0, hN⟩ hc
        have : Near e ((if b then w1 else w0).phase S.sk.lvl1 ⟨0, hN⟩)
            (half (r.graph.fin ((b :: u).foldl r.graph.nx q))) := by
          cases b
          · exact hn0
          · exact hn1
        exact (hcm.trans this).mono (by omega)
      · unfold backstreamTask
        rw [Prog.run_local _ (Graph.WF.nextState_ok hq' false), Prog.run_local _ (Graph.WF.nextState_ok hq' true)]
        rw [Prog.run_read1 hw0, Prog.run_read1 hw1,
          Prog.run_write0 (by rw [hwlen, hlen]; exact hq')]) (by rw [hlen]; exact hlt)
  rw [h1, Res.bind_ok]
  show ∃ r', (if r.bootInterval = 0 then _ else _) = _ ∧ _
  rw [if_neg (by omega)]
  by_cases hz : (r.numProcessed + 1) % r.bootInterval = 0
  · rw [if_pos hz]
    simp only [hz, if_true]
    unfold Backstream.bootstrapWeight
    dsimp only
    obtain ⟨w'', k1, k2, k3, k4⟩ := parFor_write (task := bootTask S) (rest := [])
      (P := fun q x => Near δ.br (x.phase S.sk.lvl1 ⟨0, hN⟩) (half (r.graph.fin ((b :: u).foldl r.graph.nx q))))
      (w0 := w') sts hnd (by
        intro q hq w hwlen hsame
        obtain ⟨x, hx, hnx⟩ := h3 q hq
        obtain ⟨y, hy1, hy2⟩ := hS.bootHalf hN hnx (hbud hz)
        refine ⟨y, hy2, ?_⟩
        unfold bootTask
        rw [Prog.run_read0 (hsame.trans hx), Prog.run_local _ hy1,
          Prog.run_write0 (by rw [hwlen, h2, hlen]; exact hlt q hq)]) (by rw [h2, hlen]; exact hlt)
    rw [k1, Res.bind_ok]
    refine ⟨_, rfl, rfl, rfl, rfl, rfl, ?_, ?_, ?_⟩
    · show w''.length = _; rw [k2, h2, hlen]
    · show (r.timer ++ [_]) ++ [_] = _
      rw [List.append_assoc]; rfl
    · intro q hq
      exact k3 q hq
  · rw [if_neg hz]
    simp only [hz, if_false]
    refine ⟨_, rfl, rfl, rfl, rfl, rfl, ?_, rfl, ?_⟩
    · show w'.length = _; rw [h2, hlen]
    · intro q hq
      exact h3 q hq

/-- `eval` never fails, whatever the ciphertexts contain. -/
theorem eval_struct (hN : 0 < N) {r : Backstream N} (hg : r.graph.WF) {sts : List Nat} (c : Gsw l N)
    (hst : evalStates r.graph r.inputSize r.numProcessed = .ok sts)
    (hnd : sts.Nodup) (hlt : ∀ q ∈ sts, q < r.graph.size)
    (hwl : r.weight.length = r.graph.size) (hb : 0 < r.bootInterval) :
    ∃ r', r.eval S c = .ok r' ∧ r'.graph = r.graph ∧ r'.inputSize = r.inputSize ∧ r'.bootInterval = r.bootInterval ∧
      r'.numProcessed = r.numProcessed + 1 ∧ r'.weight.length = r.graph.size ∧
      r'.timer = r.timer ++ (Target.cmux, sts.length) ::
        (if (r.numProcessed + 1) % r.bootInterval = 0 then [(Target.bootstrapping, sts.length)] else []) := by
  unfold Backstream.eval
  dsimp only
  rw [hst, Res.bind_ok]
  have hlen := vresize_length r.workspace r.graph.size (trivialTRLWEZero N)
  obtain ⟨w', h1, h2, h3, h4⟩ := parFor_write (task := backstreamTask S r.graph c) (rest := [r.weight])
    (P := fun _ _ => True) (w0 := vresize r.workspace r.graph.size (trivialTRLWEZero N)) sts hnd (by
      intro q hq w hwlen _
      have hq' := hlt q hq
      have h0 : r.graph.nx q false < r.weight.length := by rw [hwl]; exact hg.nx_lt hq' _
      have h1 : r.graph.nx q true < r.weight.length := by rw [hwl]; exact hg.nx_lt hq' _
      refine ⟨S.cmux c r.weight[r.graph.nx q true] r.weight[r.graph.nx q false], trivial, ?_⟩
      unfold backstreamTask
      rw [Prog.run_local _ (Graph.WF.nextState_ok hq' false), Prog.run_local _ (Graph.WF.nextState_ok hq' true)]
      rw [Prog.run_read1 (List.getElem?_eq_getElem h0), Prog.run_read1 (List.getElem?_eq_getElem h1),
        Prog.run_write0 (by rw [hwlen, hlen]; exact hq')]) (by rw [hlen]; exact hlt)
  rw [h1, Res.bind_ok]
  show ∃ r', (if r.bootInterval = 0 then _ else _) = _ ∧ _
  rw [if_neg (by omega)]
  by_cases hz : (r.numProcessed + 1) % r.bootInterval = 0
  · rw [if_pos hz]
    simp only [hz, if_true]
    unfold Backstream.bootstrapWeight
    dsimp only
    obtain ⟨w'', k1, k2, k3, k4⟩ := parFor_write (task := bootTask S) (rest := [])
      (P := fun _ _ => True) (w0 := w') sts hnd (by
        intro q hq w hwlen hsame
        obtain ⟨x, hx, _⟩ := h3 q hq
        have hy : S.bootHalf x = .ok (S.bsHalfToHalf (S.iks (sampleExtract x ⟨0, hN⟩))) := by
          unfold Scheme.bootHalf
          rw [sampleExtractAt_ok hN]; rfl
        refine ⟨S.bsHalfToHalf (S.iks (sampleExtract x ⟨0, hN⟩)), trivial, ?_⟩
        unfold bootTask
        rw [Prog.run_read0 (hsame.trans hx), Prog.run_local _ hy,
          Prog.run_write0 (by rw [hwlen, h2, hlen]; exact hlt q hq)]) (by rw [h2, hlen]; exact hlt)
    rw [k1, Res.bind_ok]
    refine ⟨_, rfl, rfl, rfl, rfl, rfl, ?_, ?_⟩
    · show w''.length = _; rw [k2, h2, hlen]
    · show (r.timer ++ [_]) ++ [_] = _
      rw [List.append_assoc]; rfl
  · rw [if_neg hz]
    simp only [hz, if_false]
    refine ⟨_, rfl, rfl, rfl, rfl, rfl, ?_, rfl⟩
    show w'.length = _; rw [h2, hlen]

/-- total count of the CMUX samples -/
def cmuxCount (t : List (Target × Nat)) : Nat := ((t.filter fun s => s.1 = Target.cmux).map (·.2)).sum

theorem evalAll_append (S : Scheme N n l) (r : Backstream N) (xs ys : List (Gsw l N)) :
    r.evalAll S (xs ++ ys) = (r.evalAll S xs >>= fun r' => r'.evalAll S ys) := by
  unfold evalAll
  rw [List.foldlM_append]

/-- error bound after `k` inputs -/
def errAfter (δ : Noise) (boot k : Nat) : Nat := δ.br + k % boot * δ.cmux

theorem errAfter_step {δ : Noise} {boot k : Nat} (hb : 0 < boot) :
    (if (k + 1) % boot = 0 then δ.br else errAfter δ boot k + δ.cmux) ≤ errAfter δ boot (k + 1) := by
  unfold errAfter
  split
  · omega
  · rename_i h
    have : (k + 1) % boot = k % boot + 1 := by
      have h1 := Nat.mod_lt k hb
      rw [Nat.add_mod]
      by_cases h2 : boot = 1
      · subst h2; omega
      · have h3 : 1 % boot = 1 := Nat.mod_eq_of_lt (by omega)
        rw [h3]
        apply Nat.mod_eq_of_lt
        by_contra hcon
        have : k % boot + 1 = boot := by omega
        apply h
        rw [Nat.add_mod, h3, this, Nat.mod_self]
    rw [this, Nat.add_mul]
    omega

theorem errAfter_bound {δ : Noise} {boot k m : Nat} (hb : 0 < boot) (hk : k < m) :
    errAfter δ boot k + δ.cmux ≤ δ.br + min boot m * δ.cmux := by
  unfold errAfter
  have h1 := Nat.mod_lt k hb
  have h2 := Nat.mod_le k boot
  have : (k % boot + 1) * δ.cmux ≤ min boot m * δ.cmux := Nat.mul_le_mul_right _ (by omega)
  rw [Nat.add_mul] at this
  omega

/-- The whole run.  `dom k` are the states whose weight is meaningful after `k` inputs. -/
theorem evalAll_inv (hS : S.Sound δ Enc) (hN : 0 < N) {r : Backstream N} (hb : 0 < r.bootInterval)
    (hnp : r.numProcessed = 0) (hwl : r.weight.length = r.graph.size) (ht : r.timer = []) (dom : Nat → List Nat) (m : Nat)
    (hst : ∀ k < m, evalStates r.graph r.inputSize k = .ok (dom (k + 1)))
    (hnd : ∀ k, (dom k).Nodup) (hlt : ∀ k, ∀ q ∈ dom k, q < r.graph.size)
    (hcl : ∀ k < m, ∀ q ∈ dom (k + 1), ∀ b, r.graph.nx q b ∈ dom k)
    (hw : ∀ q ∈ dom 0, Holds S hN 0 r.weight q (r.graph.fin q))
    (hbud : δ.br + min r.bootInterval m * δ.cmux + δ.ks + δ.ms < 2 ^ 30)
    (cs : List (Gsw l N)) (w : List Bool) (hcs : List.Forall₂ Enc cs w) (hm : w.length ≤ m) :
    ∃ r', r.evalAll S cs = .ok r' ∧ r'.graph = r.graph ∧ r'.inputSize = r.inputSize ∧ r'.bootInterval = r.bootInterval ∧
      r'.numProcessed = w.length ∧ r'.weight.length = r.graph.size ∧
      r'.timer.filter (fun s => s.1 = Target.cmux) = (List.range w.length).map (fun k => (Target.cmux, (dom (k + 1)).length)) ∧
      ∀ q ∈ dom w.length, Holds S hN (errAfter δ r.bootInterval w.length) r'.weight q
        (r.graph.fin (w.reverse.foldl r.graph.nx q)) := by
  induction w using List.reverseRecOn generalizing cs with
  | nil =>
    cases hcs
    refine ⟨r, rfl, rfl, rfl, rfl, hnp, hwl, ?_, ?_⟩
    · rw [ht]; rfl
    · intro q hq
      exact (hw q hq).mono (Nat.zero_le _)
  | append_singleton w b ih =>
    have hlen := hcs.length_eq
    rw [List.length_append, List.length_singleton] at hlen hm
    obtain ⟨cs', c, rfl⟩ : ∃ cs' c, cs = cs' ++ [c] := by
      rcases List.eq_nil_or_concat cs with h | ⟨a, c, h⟩
      · subst h; simp at hlen
      · exact ⟨a, c, by simpa using h⟩
    have hlen' : cs'.length = w.length := by simpa using hlen
    obtain ⟨hcs1, hcs2⟩ := forall₂_split hlen' hcs
    cases hcs2 with
    | cons hc _ =>
    obtain ⟨r1, h1, h2, h3, h4, h5, h6, h7, h8⟩ := ih cs' hcs1 (by omega)
    have hstep := eval_ok hS hN (r := r1) (sts := dom (w.length + 1)) (u := w.reverse) (c := c)
      (b := b) (e := errAfter δ r.bootInterval w.length)
      (by rw [h3, h2, h5]; exact hst w.length (by omega)) (hnd _) (by rw [h2]; exact hlt _) hc
      (by
        intro q hq b
        rw [h2]
        exact h8 _ (hcl w.length (by omega) q hq b))
      (by rw [h4]; exact hb)
      (by
        intro _
        have := errAfter_bound (δ := δ) hb (show w.length < m by omega)
        omega)
    obtain ⟨r2, k1, k2, k3, k4, k5, k6, k7, k8⟩ := hstep
    refine ⟨r2, ?_, by rw [k2, h2], by rw [k3, h3], by rw [k4, h4], ?_, by rw [k6, h2], ?_, ?_⟩
    · rw [evalAll_append, h1]
      show [c].foldlM (fun r c => r.eval S c) r1 = _
      rw [List.foldlM_cons, k1]
      rfl
    · rw [k5, h5]; simp
    · rw [k7, List.filter_append, h7]
      simp only [List.length_append, List.length_singleton]
      rw [List.range_succ, List.map_append]
      congr 1
      split <;> rfl
    · intro q hq
      rw [List.length_append, List.length_singleton] at hq ⊢
      have := k8 q hq
      rw [h2, h4, h5] at this
      rw [List.reverse_append]
      exact this.mono (errAfter_step hb)

/-- The whole run, whatever the ciphertexts contain. -/
theorem evalAll_struct (hN : 0 < N) {r : Backstream N} (hg : r.graph.WF) (hb : 0 < r.bootInterval)
    (hnp : r.numProcessed = 0) (hwl : r.weight.length = r.graph.size) (ht : r.timer = []) (dom : Nat → List Nat) (m : Nat)
    (hst : ∀ k < m, evalStates r.graph r.inputSize k = .ok (dom (k + 1)))
    (hnd : ∀ k, (dom k).Nodup) (hlt : ∀ k, ∀ q ∈ dom k, q < r.graph.size)
    (cs : List (Gsw l N)) (hm : cs.length ≤ m) :
    ∃ r', r.evalAll S cs = .ok r' ∧ r'.graph = r.graph ∧ r'.inputSize = r.inputSize ∧ r'.bootInterval = r.bootInterval ∧
      r'.numProcessed = cs.length ∧ r'.weight.length = r.graph.size ∧
      cmuxCount r'.timer = ((List.range cs.length).map (fun k => (dom (k + 1)).length)).sum := by
  induction cs using List.reverseRecOn with
  | nil =>
    refine ⟨r, rfl, rfl, rfl, rfl, hnp, hwl, ?_⟩
    rw [ht]; rfl
  | append_singleton cs c ih =>
    rw [List.length_append, List.length_singleton] at hm
    obtain ⟨r1, h1, h2, h3, h4, h5, h6, h7⟩ := ih (by omega)
    obtain ⟨r2, k1, k2, k3, k4, k5, k6, k7⟩ := eval_struct (S := S) hN (r := r1) (by rw [h2]; exact hg) (sts := dom (cs.length + 1)) c
      (by rw [h3, h2, h5]; exact hst cs.length (by omega)) (hnd _) (by rw [h2]; exact hlt _)
      (by rw [h6, h2]) (by rw [h4]; exact hb)
    refine ⟨r2, ?_, by rw [k2, h2], by rw [k3, h3], by rw [k4, h4], ?_, by rw [k6, h2], ?_⟩
    · rw [evalAll_append, h1]
      show [c].foldlM (fun r c => r.eval S c) r1 = _
      rw [List.foldlM_cons, k1]
      rfl
    · rw [k5, h5]; simp
    · have hc : cmuxCount r2.timer = cmuxCount r1.timer + (dom (cs.length + 1)).length := by
        rw [k7]
        unfold cmuxCount
        rw [List.filter_append, List.map_append, List.sum_append]
        congr 1
        split <;> simp
      rw [hc, h7, List.length_append, List.length_singleton, List.range_succ, List.map_append, List.sum_append]
      simp

theorem result_ok (hN : 0 < N) {r : Backstream N} {b : Bool} {e : Nat} (h : Holds S hN e r.weight r.graph.init b) :
    ∃ c, r.result = .ok c ∧ Near e (c.phase S.sk.lvl1) (half b) := by
  obtain ⟨w, h1, h2⟩ := h
  unfold result
  refine ⟨sampleExtract w ⟨0, hN⟩, ?_, by rw [phase_sampleExtract]; exact h2⟩
  show (do let w ← vat r.weight r.graph.init; sampleExtractAt w 0) = _
  rw [vat_eq_ok.2 h1, Res.bind_ok, sampleExtractAt_ok hN]

end Backstream
end Homfa
