import Verif.Spec.Noise
import Verif.Proof.Backstream

/-! The OFFLINE / REVERSE runner computes `cmuxTree`; its error is the sum of the errors on the path. -/

namespace Homfa

variable {N n l : Nat} {S : Scheme N n l} {δ : Noise}

theorem Scheme.bootHalf_eq (hN : 0 < N) (x : TRLWE N) : S.bootHalf x = .ok (S.refresh hN x) := by
  unfold Scheme.bootHalf
  rw [sampleExtractAt_ok hN]; rfl

namespace Backstream

/-- One call of `eval`, ciphertext by ciphertext. -/
theorem eval_tree (hN : 0 < N) {r : Backstream N} {sts : List Nat} (c : Gsw l N) {W : Nat → TRLWE N}
    (hst : evalStates r.graph r.inputSize r.numProcessed = .ok sts)
    (hnd : sts.Nodup) (hlt : ∀ q ∈ sts, q < r.graph.size)
    (hw : ∀ q ∈ sts, ∀ b, r.weight[r.graph.nx q b]? = some (W (r.graph.nx q b)))
    (hb : 0 < r.bootInterval) :
    ∃ r', r.eval S c = .ok r' ∧ r'.graph = r.graph ∧ r'.inputSize = r.inputSize ∧ r'.bootInterval = r.bootInterval ∧
      r'.numProcessed = r.numProcessed + 1 ∧
      ∀ q ∈ sts, r'.weight[q]? = some
        (if (r.numProcessed + 1) % r.bootInterval = 0 then S.refresh hN (S.cmux c (W (r.graph.nx q true)) (W (r.graph.nx q false)))
         else S.cmux c (W (r.graph.nx q true)) (W (r.graph.nx q false))) := by
  unfold Backstream.eval
  dsimp only
  rw [hst, Res.bind_ok]
  have hlen := vresize_length r.workspace r.graph.size (trivialTRLWEZero N)
  obtain ⟨w', h1, h2, h3, h4⟩ := parFor_write (task := backstreamTask S r.graph c) (rest := [r.weight])
    (P := fun q x => x = S.cmux c (W (r.graph.nx q true)) (W (r.graph.nx q false)))
    (w0 := vresize r.workspace r.graph.size (trivialTRLWEZero N)) sts hnd (by
      intro q hq w hwlen _
      have hq' := hlt q hq
      refine ⟨_, rfl, ?_⟩
      unfold backstreamTask
      rw [Prog.run_local _ (Graph.WF.nextState_ok hq' false), Prog.run_local _ (Graph.WF.nextState_ok hq' true)]
      rw [Prog.run_read1 (hw q hq false), Prog.run_read1 (hw q hq true),
        Prog.run_write0 (by rw [hwlen, hlen]; exact hq')]) (by rw [hlen]; exact hlt)
  rw [h1, Res.bind_ok]
  show ∃ r', (if r.bootInterval = 0 then _ else _) = _ ∧ _
  rw [if_neg (by omega)]
  by_cases hz : (r.numProcessed + 1) % r.bootInterval = 0
  · rw [if_pos hz]
    simp only [hz, if_true]
    unfold Backstream.bootstrapWeight
    dsimp only
    obtain ⟨w'', k1, k2, k3, k4⟩ := parFor_write (task := bootTask S) (rest := [])
      (P := fun q x => x = S.refresh hN (S.cmux c (W (r.graph.nx q true)) (W (r.graph.nx q false)))) (w0 := w') sts hnd (by
        intro q hq w hwlen hsame
        obtain ⟨x, hx, hx'⟩ := h3 q hq
        subst hx'
        refine ⟨_, rfl, ?_⟩
        unfold bootTask
        rw [Prog.run_read0 (hsame.trans hx), Prog.run_local _ (S.bootHalf_eq hN _),
          Prog.run_write0 (by rw [hwlen, h2, hlen]; exact hlt q hq)]) (by rw [h2, hlen]; exact hlt)
    rw [k1, Res.bind_ok]
    refine ⟨_, rfl, rfl, rfl, rfl, rfl, ?_⟩
    intro q hq
    obtain ⟨x, hx, rfl⟩ := k3 q hq
    exact hx
  · rw [if_neg hz]
    simp only [hz, if_false]
    refine ⟨_, rfl, rfl, rfl, rfl, rfl, ?_⟩
    intro q hq
    obtain ⟨x, hx, rfl⟩ := h3 q hq
    exact hx

/-- The whole run: after the ciphertexts `cs`, last one first, the weights are trees over them. -/
theorem evalAll_tree (hN : 0 < N) {r : Backstream N} (hb : 0 < r.bootInterval)
    (hnp : r.numProcessed = 0) (dom : Nat → List Nat) (m : Nat)
    (hst : ∀ k < m, evalStates r.graph r.inputSize k = .ok (dom (k + 1)))
    (hnd : ∀ k, (dom k).Nodup) (hlt : ∀ k, ∀ q ∈ dom k, q < r.graph.size)
    (hcl : ∀ k < m, ∀ q ∈ dom (k + 1), ∀ b, r.graph.nx q b ∈ dom k)
    (hw : ∀ q ∈ dom 0, r.weight[q]? = some (if r.graph.fin q then trivialTRLWE2 N else trivialTRLWEZero N))
    (cs : List (Gsw l N)) (hm : cs.length ≤ m) :
    ∃ r', r.evalAll S cs.reverse = .ok r' ∧ r'.graph = r.graph ∧ r'.inputSize = r.inputSize ∧ r'.bootInterval = r.bootInterval ∧
      r'.numProcessed = cs.length ∧
      ∀ q ∈ dom cs.length, r'.weight[q]? = some (cmuxTree S hN r.graph.nx r.graph.fin r.bootInterval cs q) := by
  induction cs with
  | nil => exact ⟨r, rfl, rfl, rfl, rfl, hnp, hw⟩
  | cons c cs ih =>
    rw [List.length_cons] at hm
    obtain ⟨r1, h1, h2, h3, h4, h5, h6⟩ := ih (by omega)
    obtain ⟨r2, k1, k2, k3, k4, k5, k6⟩ := eval_tree (S := S) hN (r := r1) (sts := dom (cs.length + 1)) c
      (W := cmuxTree S hN r.graph.nx r.graph.fin r.bootInterval cs)
      (by rw [h3, h2, h5]; exact hst _ (by omega)) (hnd _) (by rw [h2]; exact hlt _)
      (by intro q hq b; rw [h2]; exact h6 _ (hcl _ (by omega) q hq b)) (by rw [h4]; exact hb)
    refine ⟨r2, ?_, by rw [k2, h2], by rw [k3, h3], by rw [k4, h4], by rw [k5, h5]; rfl, ?_⟩
    · rw [List.reverse_cons, evalAll_append, h1]
      show [c].foldlM (fun r c => r.eval S c) r1 = _
      rw [List.foldlM_cons, k1]
      rfl
    · intro q hq
      have := k6 q hq
      rw [h2, h4, h5] at this
      exact this

end Backstream

theorem phase0_trivial (hN : 0 < N) (b : Bool) : S.phase0 hN (if b then trivialTRLWE2 N else trivialTRLWEZero N) = half b :=
  trivial_half_phase b _ hN

/-- The phase is the message, plus the error of the last refreshing, plus the errors of the CMUXes since. -/
theorem cmuxTree_phase (hN : 0 < N) (next : Nat → Bool → Nat) (final : Nat → Bool) (boot : Nat) (cs : List (Gsw l N)) (bs : List Bool)
    (hl : cs.length = bs.length) (q : Nat) :
    S.phase0 hN (cmuxTree S hN next final boot cs q) =
      half (final (bs.foldl next q)) + refreshError S hN next final boot cs bs q + (pathErrors S hN next final boot cs bs q).sum := by
  induction cs generalizing bs q with
  | nil =>
    cases bs with
    | cons => cases hl
    | nil =>
      unfold cmuxTree pathErrors refreshError
      rw [phase0_trivial]
      simp
  | cons c cs ih =>
    cases bs with
    | nil => cases hl
    | cons b bs =>
      have hl : cs.length = bs.length := by simpa using hl
      by_cases hz : (cs.length + 1) % boot = 0
      · unfold pathErrors refreshError
        rw [if_pos hz, if_pos hz]
        rw [List.sum_nil, add_zero]
        abel
      · unfold pathErrors refreshError
        rw [if_neg hz, if_neg hz, List.sum_cons, cmuxTree, if_neg hz]
        have := ih bs hl (next q b)
        rw [List.foldl_cons]
        have e : ∀ x1 x0, S.phase0 hN (S.cmux c x1 x0) = S.cmuxError hN c b x1 x0 + S.phase0 hN (if b then x1 else x0) := by
          intro x1 x0; unfold Scheme.cmuxError; abel
        rw [e]
        have hsel : (if b = true then cmuxTree S hN next final boot cs (next q true) else cmuxTree S hN next final boot cs (next q false)) =
            cmuxTree S hN next final boot cs (next q b) := by cases b <;> rfl
        rw [hsel, this]
        abel

theorem near_all (x y : Torus) : Near (2 ^ 31) x y := by
  unfold Near Torus.abs
  have h1 := BitVec.le_toInt (x - y)
  have h2 := BitVec.toInt_lt (x := x - y)
  omega

theorem Scheme.RefreshSound.sound (h : S.RefreshSound δ) : S.Sound { δ with cmux := 2 ^ 31, ik11 := 2 ^ 31 } (fun _ _ => True) where
  cmux := fun _ _ _ _ _ _ => near_all _ _
  iks := h.iks
  blindRotate_pos := h.blindRotate_pos
  blindRotate_neg := h.blindRotate_neg
  tlwe2trlwe := fun _ _ => near_all _ _
  cb_pos := fun _ _ _ => trivial
  cb_neg := fun _ _ _ => trivial
  encrypt := fun _ _ => trivial

theorem Scheme.Sound.refreshSound {Enc : Gsw l N → Bool → Prop} (h : S.Sound δ Enc) : S.RefreshSound δ :=
  ⟨h.iks, h.blindRotate_pos, h.blindRotate_neg⟩

theorem near_abs {x y e : Torus} {k : Nat} (h : Near k x (y + e)) : Near (k + Torus.abs e) x y := by
  refine h.trans ?_
  unfold Near
  rw [show y + e - y = e by abel]

/-- When the margins are met, every refreshing succeeds. -/
theorem cmuxTree_near (hS : S.RefreshSound δ) (hN : 0 < N) (next : Nat → Bool → Nat) (final : Nat → Bool) (boot : Nat)
    (cs : List (Gsw l N)) (bs : List Bool) (hl : cs.length = bs.length) (q : Nat) (hm : MarginsMet S hN δ next final boot cs bs q) :
    Near δ.br (S.phase0 hN (cmuxTree S hN next final boot cs q))
      (half (final (bs.foldl next q)) + (pathErrors S hN next final boot cs bs q).sum) := by
  induction cs generalizing bs q with
  | nil =>
    cases bs with
    | cons => cases hl
    | nil =>
      rw [cmuxTree_phase (S := S) hN next final boot [] [] rfl q]
      have : refreshError S hN next final boot [] [] q = 0 := by unfold refreshError; rfl
      rw [this, add_zero]
      exact Near.rfl'
  | cons c cs ih =>
    cases bs with
    | nil => cases hl
    | cons b bs =>
      have hl : cs.length = bs.length := by simpa using hl
      obtain ⟨hm1, hm2⟩ := hm
      have h0 := ih bs hl (next q b) hm1
      have e : ∀ x1 x0, S.phase0 hN (S.cmux c x1 x0) = S.phase0 hN (if b then x1 else x0) + S.cmuxError hN c b x1 x0 := by
        intro x1 x0; unfold Scheme.cmuxError; abel
      have hsel : (if b = true then cmuxTree S hN next final boot cs (next q true) else cmuxTree S hN next final boot cs (next q false)) =
          cmuxTree S hN next final boot cs (next q b) := by cases b <;> rfl
      have h1 := h0.add_const (S.cmuxError hN c b (cmuxTree S hN next final boot cs (next q true))
        (cmuxTree S hN next final boot cs (next q false)))
      rw [← hsel, ← e, add_assoc] at h1
      rw [cmuxTree]
      unfold pathErrors
      rw [List.foldl_cons]
      by_cases hz : (cs.length + 1) % boot = 0
      · rw [if_pos hz, if_pos hz, List.sum_nil, add_zero]
        have h2 := near_abs h1
        have h3 := hm2 hz
        rw [add_comm (pathErrors S hN next final boot cs bs (next q b)).sum] at h2
        obtain ⟨y, hy1, hy2⟩ := hS.sound.bootHalf hN h2 (by dsimp only; omega)
        rw [Scheme.bootHalf_eq hN] at hy1
        cases hy1
        exact hy2
      · rw [if_neg hz, if_neg hz, List.sum_cons]
        rw [add_comm (pathErrors S hN next final boot cs bs (next q b)).sum] at h1
        exact h1

/-- decryption of a phase with a known error -/
theorem decryptBit_error (c : TLWE N) (sk : SecretKey N n) (b : Bool) (e : Torus) (h : c.phase sk.lvl1 = half b + e) :
    decryptBit c sk = b ↔ Torus.abs e < 2 ^ 30 ∨ (b = false ∧ Torus.abs e = 2 ^ 30) := by
  unfold decryptBit
  rw [h]
  unfold Torus.abs
  have hm4 : mu4.toNat = 2 ^ 30 := by decide
  have hm2 : mu2.toNat = 2 ^ 31 := by decide
  have he := e.isLt
  cases b
  · have : half false + e = e := by unfold half; simp
    rw [this]
    simp only [decide_eq_false_iff_not, true_and]
    rw [BitVec.toNat_add, hm4, hm2, BitVec.toInt_eq_toNat_cond]
    split <;> omega
  · have : half true + e + mu4 = (mu2 + mu4) + e := by unfold half; simp only [if_true]; abel
    rw [this]
    simp only [decide_eq_true_eq, Bool.true_eq_false, false_and, or_false]
    have h24 : (mu2 + mu4).toNat = 2 ^ 31 + 2 ^ 30 := by decide
    rw [BitVec.toNat_add, h24, hm2, BitVec.toInt_eq_toNat_cond]
    split <;> omega

end Homfa
