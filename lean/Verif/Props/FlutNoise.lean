import Verif.Props.Flut
import Verif.Props.BlockNoise
import Verif.Proof.FlutNoise

/-!
# C88: FLUT is wrong only if the errors of the weights of the accepting states really add up

C32 and C33 assume a worst-case error for every library operation on every ciphertext.  Here nothing is assumed about the library: the results are given as expressions over the library
operations (`FlutRun`, Spec/FlutNoise.lean), and their errors as the sums of those errors that end up in them.
-/

namespace Homfa

variable {N n l : Nat}

/-- **C88 (weights).** The weight of every reachable state is the message (1/2 in coefficient 0 for the state that is reached, 0 everywhere else) plus the error polynomial of the run. -/
theorem C88_weight_phase (S : Scheme N n l) (hN : 0 < N) (d : Spec.Dfa Nat) (max boot k : Nat) (cu : List (Gsw l N)) (u : List Bool) (W : Nat → TRLWE N)
    (E : Nat → Poly N) (hrun : FlutRun S hN d max boot k cu u W E) (L : List Nat) (hL : IsLive d u.length L) (q : Nat) (hq : q ∈ L) (i : Fin N) :
    (W q).phase S.sk.lvl1 i = (if i.val = 0 then half (decide (q = d.run d.start u)) else 0) + E q i :=
  hrun.phase hL hq i

/-- **C88 (result).** For any library and any ciphertexts: if never 2^max_second_lut_depth states are reachable at once, then over any history no call fails, and each result is the sum of the
weights of the accepting reachable states of a run over the ciphertexts fed so far.  Whatever bits the ciphertexts are supposed to encrypt, its phase is the right message plus the sum of the errors
of these weights in coefficient 0, and it decrypts to the right bit exactly when that sum is below 1/4 in size (or exactly 1/4, when the message is 0). -/
theorem C88_flut_error (S : Scheme N n l) (hN : 0 < N) (g : Graph) (hg : g.WF) (max qs boot L : Nat) (hL : LiveMax g L) (hLm : L < 2 ^ max) (hqs0 : 0 < qs) (hqs : qs < 31)
    (hmax : max < 31) (hmaxN : 2 ^ max ≤ N) (hboot : 0 < boot)
    (cs : List (Call (Gsw l N))) (ps : List (Call Bool)) (hcs : List.Forall₂ (Call.Rel fun _ _ => True) cs ps) :
    ∃ r r' outs, Flut.make g max qs boot false = .ok r ∧
      runCalls (fun r c => Flut.evalOne S r c) (fun r => Flut.result S r) r cs = .ok (outs, r') ∧
      List.Forall₂ (fun (c : TLWE N) (cu : List (Gsw l N) × List Bool) =>
        ∃ k W E X, FlutRun S hN g.dfa max boot k cu.1 cu.2 W E ∧ IsLive g.dfa cu.2.length X ∧
          c = sampleExtract (TRLWE.sum ((X.filter g.dfa.accept).map W)) ⟨0, hN⟩ ∧
          let e := ((X.filter g.dfa.accept).map fun q => E q ⟨0, hN⟩).sum
          c.phase S.sk.lvl1 = half (g.dfa.accepts cu.2) + e ∧
          (decryptBit c S.sk = g.dfa.accepts cu.2 ↔ Torus.abs e < 2 ^ 30 ∨ (g.dfa.accepts cu.2 = false ∧ Torus.abs e = 2 ^ 30)))
        outs ((resultWords [] cs).zip (resultWords [] ps)) := by
  have hlev : ∀ d, (g.levelSet [g.init] d).length < 2 ^ max := fun d => Nat.lt_of_le_of_lt (hL.level hg d) hLm
  have key : ∀ (cs : List (Call (Gsw l N))) (ps : List (Call Bool)), List.Forall₂ (Call.Rel fun _ _ => True) cs ps →
      ∀ (r : Flut N l) (cu : List (Gsw l N)) (u v : List Bool), FXInv S hN g max qs boot r cu u v → v.length < qs →
      ∃ r' outs, runCalls (fun r c => Flut.evalOne S r c) (fun r => Flut.result S r) r cs = .ok (outs, r') ∧
      List.Forall₂ (fun (c : TLWE N) (cu : List (Gsw l N) × List Bool) =>
        ∃ k W E X, FlutRun S hN g.dfa max boot k cu.1 cu.2 W E ∧ IsLive g.dfa cu.2.length X ∧
          c = sampleExtract (TRLWE.sum ((X.filter g.dfa.accept).map W)) ⟨0, hN⟩ ∧
          let e := ((X.filter g.dfa.accept).map fun q => E q ⟨0, hN⟩).sum
          c.phase S.sk.lvl1 = half (g.dfa.accepts cu.2) + e ∧
          (decryptBit c S.sk = g.dfa.accepts cu.2 ↔ Torus.abs e < 2 ^ 30 ∨ (g.dfa.accepts cu.2 = false ∧ Torus.abs e = 2 ^ 30)))
        outs ((resultWords (cu ++ r.queued) cs).zip (resultWords (u ++ v) ps)) := by
    intro cs ps h
    induction h with
    | nil => intro r cu u v _ _; exact ⟨r, [], rfl, .nil⟩
    | @cons c p cs ps hc _ ih =>
      intro r cu u v hI hv
      cases hc with
      | @feed x y hxy =>
        obtain ⟨r', cu', u', v', h1, h2, h3, h4, h5⟩ := fxinv_one hg hqs hmax hmaxN hlev hboot hI hv x y
        obtain ⟨r'', outs, k1, k2⟩ := ih r' cu' u' v' h2 h5
        refine ⟨r'', outs, ?_, ?_⟩
        · rw [runCalls, h1]; exact k1
        · rw [resultWords, resultWords, ← h3, ← h4]; exact k2
      | result =>
        obtain ⟨c, r', W, E, X, hres, h2, h3, hrun, hX, hc⟩ := fxinv_result hg hqs hmax hmaxN hlev hboot hI hv
        obtain ⟨r'', outs, k1, k2⟩ := ih r' (cu ++ r.queued) (u ++ v) [] h3 (by simpa using hqs0)
        refine ⟨r'', c :: outs, ?_, ?_⟩
        · rw [runCalls, hres]
          show (runCalls _ _ r' cs >>= _) = _
          rw [k1]; rfl
        · rw [resultWords, resultWords, List.zip_cons_cons]
          have hph := flutOut_phase hrun hX
          rw [← hc] at hph
          refine .cons ⟨_, W, E, X, hrun, hX, hc, hph, decryptBit_error _ _ _ _ hph⟩ ?_
          rw [h2, List.append_nil, List.append_nil] at k2
          exact k2
  obtain ⟨r, h1, h2, h3⟩ := fxinv_make (S := S) (hN0 := hN) hg max qs boot hqs
  obtain ⟨r', outs, h4, h5⟩ := key cs ps hcs r [] [] [] h3 (by simpa using hqs0)
  rw [h2] at h5
  exact ⟨r, r', outs, h1, h4, h5⟩

/-- **C88 (what bootstrapping keeps out).** If the key switch and the blind rotation work within their margin, then the bootstrapping of the weight of `q` leaves an error of at most that of
the blind rotation, as long as the errors that went into that weight add up to less than the margin. -/
theorem C88_boot_right (S : Scheme N n l) (δ : Noise) (hS : S.RefreshSound δ) (hN : 0 < N) (d : Spec.Dfa Nat) (max boot k : Nat) (cu : List (Gsw l N)) (u v : List Bool)
    (E : Nat → Poly N) (B : FlutBlock N l) (hrun : FlutRun S hN d max boot k cu u B.weight E) (hd : B.d = d) (hlen : B.letters.length = v.length)
    (h0 : IsLive d u.length B.before) (h1 : IsLive d (u.length + v.length) B.after) (h2 : B.second ≤ v.length)
    (hBN : B.after.length * 2 ^ B.second ≤ N) (hy : lsbIndex (v.drop B.first) < 2 ^ B.second) (q : Nat) (hq : q ∈ B.after)
    (hm : Torus.abs (B.errors S hBN v E hq hy).sum + δ.ks + δ.ms < 2 ^ 30) :
    Torus.abs ((S.refreshLwe hN (B.unpacked S hBN hq)).phase S.sk.lvl1 - half (decide (q = d.run d.start (u ++ v)))) ≤ δ.br := by
  have hph := B.unpacked_phase (S := S) (by rw [hlen]; exact h2) hBN (SSorted.nodup h0.1) (by
    intro p hp w hw
    obtain ⟨x, hx, rfl⟩ := (h0.2 p).1 hp
    refine (h1.2 _).2 ⟨x ++ w, by rw [List.length_append, hx, hw, hlen], ?_⟩
    rw [List.foldl_append, hd]; rfl) hlen h0.run_mem (E := E) (fun p hp i => hrun.phase h0 hp i) hq hy
  rw [hd, show d.run (d.run d.start u) v = d.run d.start (u ++ v) from (List.foldl_append).symm] at hph
  have hn := near_abs (k := 0) (Near.rfl' (x := half (decide (q = d.run d.start (u ++ v))) + (B.errors S hBN v E hq hy).sum))
  rw [← hph, Nat.zero_add] at hn
  have h3 : Near δ.br ((S.bsHalfToHalf (S.iks (B.unpacked S hBN hq))).phase S.sk.lvl1 ⟨0, hN⟩) (half (decide (q = d.run d.start (u ++ v)))) :=
    hS.sound.bsHalfToHalf ((hS.iks _).trans hn) (by show δ.ks + _ + δ.ms < 2 ^ 30; rw [Nat.add_comm δ.ks]; exact hm) ⟨0, hN⟩ rfl
  rw [show (S.refreshLwe hN (B.unpacked S hBN hq)).phase S.sk.lvl1 = (S.bsHalfToHalf (S.iks (B.unpacked S hBN hq))).phase S.sk.lvl1 ⟨0, hN⟩ from phase_sampleExtract _ _ _]
  exact h3

/-- the results of FLUT with the backend `biasScheme4` -/
def biasFlutOuts (max qs boot : Nat) (w : List Bool) : Res (List Bool) := do
  let r ← Flut.make (N := 4) (l := 1) exGraph max qs boot false
  let o ← runCalls (fun r c => Flut.evalOne biasScheme4 r c) (fun r => Flut.result biasScheme4 r) r
    (w.map (fun b => Call.feed (biasScheme4.encrypt 0 b)) ++ [.result])
  pure (o.1.map fun c => decryptBit c biasScheme4.sk)

/-- The hypotheses are met by this backend with queue size 2 and no bootstrapping for the first nine evaluations.  On 10011 the errors of the weights cancel and the answer is right; on 10111 they
add up and the answer is wrong. -/
example : exGraph.WF ∧ LiveMax exGraph 3 ∧ 3 < 2 ^ 2 ∧
    (∀ w : List Bool, List.Forall₂ (Call.Rel fun _ _ => True)
      (w.map (fun b => Call.feed (biasScheme4.encrypt 0 b)) ++ [.result]) (w.map Call.feed ++ [.result])) ∧
    biasFlutOuts 2 2 10 [true, false, false, true, true] = .ok [true] ∧ exGraph.accepts [true, false, false, true, true] = .ok true ∧
    biasFlutOuts 2 2 10 [true, false, true, true, true] = .ok [false] ∧ exGraph.accepts [true, false, true, true, true] = .ok true := by
  refine ⟨exGraph_wf, liveMax_of_size exGraph_wf, by decide, fun w => ?_, by decide +kernel, by decide +kernel, by decide +kernel, by decide +kernel⟩
  refine List.rel_append ?_ (.cons .result .nil)
  rw [List.forall₂_map_left_iff, List.forall₂_map_right_iff, List.forall₂_same]
  exact fun b _ => .feed trivial

theorem biasScheme4_refresh : biasScheme4.RefreshSound toyNoise :=
  let h := (toy_sound (N := 4) (n := 2) (l := 1) ⟨![1, 0, 1, 0], ![1, 0]⟩ (by decide) (by decide)).refreshSound
  ⟨h.iks, h.blindRotate_pos, h.blindRotate_neg⟩

/-- the first two letters, 0 and 1, with `biasScheme4` -/
def biasFlutBlock : FlutBlock 4 1 where
  d := exGraph.dfa
  before := exGraph.levelSet [exGraph.init] 0
  after := exGraph.levelSet [exGraph.init] 2
  second := 0
  letters := [biasScheme4.encrypt 0 false, biasScheme4.encrypt 0 true]
  weight := fun _ => trivialTRLWE fun i => if i.val = 0 then mu2 else 0#32

/-- The hypotheses of `C88_boot_right` are met by the first evaluation of two letters: the errors of +1/8 and -1/8 cancel. -/
example : FlutRun biasScheme4 (by decide) exGraph.dfa 2 1 0 [] [] biasFlutBlock.weight (fun _ _ => 0#32) ∧
    IsLive exGraph.dfa 0 biasFlutBlock.before ∧ IsLive exGraph.dfa (0 + 2) biasFlutBlock.after ∧
    ∃ hBN hy, ∃ hq : 1 ∈ biasFlutBlock.after,
      Torus.abs (biasFlutBlock.errors biasScheme4 hBN [false, true] (fun _ _ => 0#32) hq hy).sum + toyNoise.ks + toyNoise.ms < 2 ^ 30 := by
  refine ⟨.start rfl, isLive_levelSet exGraph_wf 0, isLive_levelSet exGraph_wf 2, by decide +kernel, by decide +kernel, by decide +kernel, by decide +kernel⟩

end Homfa
