import Verif.Props.Block
import Verif.Props.Noise
import Verif.Proof.BlockNoise

/-!
# C86: BLOCK is wrong only if the errors of the last block really add up

C30 and C31 assume a worst-case error for every CMUX on every pair of ciphertexts.  Here nothing is assumed about the library: the results are given as expressions over
the library operations (`BlockRun`, Spec/BlockNoise.lean), and their errors as the sums of the errors that the CMUXes on one path of the last block made.
-/

namespace Homfa

variable {N n l : Nat}

/-- **C86 (selector).** The other coefficients of the result of a run: coefficient `i` is the message (the bits of the place of the reached state among those reachable by as many letters, as +1/8
and -1/8) plus the errors of the last block in that coefficient. -/
theorem C86_selector_phase (S : Scheme N n l) (d : Spec.Dfa Nat) (cu : List (Gsw l N)) (u : List Bool) (w : TRLWE N) (es : Fin N → List Torus)
    (hrun : BlockRun S d cu u (some w) es) (L : List Nat) (hL : IsLive d u.length L) (i : Fin N) :
    w.phase S.sk.lvl1 i = blockMsg d L (d.run d.start u) i.val + (es i).sum := by
  cases hrun with
  | @block cu0 u0 s0 es0 cv0 v0 _ _ hr hv0 hl hst => exact hst.phase hl (by rw [← List.length_append]; exact hL) i

/-- **C86 (result).** For any library and any ciphertexts: over any history that does not start with `result()`, no call fails, and each result is coefficient 0 of a block-wise run
over the ciphertexts fed so far.  Whatever bits the ciphertexts are supposed to encrypt, its phase is the right message plus the sum of at most `queue_size + B` errors of the last
block, and it decrypts to the right bit exactly when that sum is below 1/4 in size (or exactly 1/4, when the message is 0). -/
theorem C86_block_error (S : Scheme N n l) (hN : 0 < N) (g : Graph) (hg : g.WF) (qs B : Nat) (hB : LiveBits g B) (hBN : B < N) (hB31 : B < 31) (hint : qs ≤ 2 ^ 31)
    (cs : List (Call (Gsw l N))) (ps : List (Call Bool)) (hcs : List.Forall₂ (Call.Rel fun _ _ => True) cs ps)
    (hfirst : ∀ rest, ps ≠ .result :: rest) :
    ∃ r r' outs, Block.make g qs false = .ok r ∧
      runCalls (fun r c => Block.evalOne S r c) (fun r => Block.result S r) r cs = .ok (outs, r') ∧
      List.Forall₂ (fun (c : TLWE N) (cu : List (Gsw l N) × List Bool) =>
        ∃ w es, BlockRun S g.dfa cu.1 cu.2 (some w) es ∧ c = sampleExtract w ⟨0, hN⟩ ∧
          (es ⟨0, hN⟩).length ≤ max 1 qs + B ∧
          c.phase S.sk.lvl1 = half (g.dfa.accepts cu.2) + (es ⟨0, hN⟩).sum ∧
          (decryptBit c S.sk = g.dfa.accepts cu.2 ↔ Torus.abs (es ⟨0, hN⟩).sum < 2 ^ 30 ∨
            (g.dfa.accepts cu.2 = false ∧ Torus.abs (es ⟨0, hN⟩).sum = 2 ^ 30)))
        outs ((resultWords [] cs).zip (resultWords [] ps)) := by
  have key : ∀ (cs : List (Call (Gsw l N))) (ps : List (Call Bool)), List.Forall₂ (Call.Rel fun _ _ => True) cs ps →
      ∀ (r : Block N l) (cu : List (Gsw l N)) (u v : List Bool), BXInv S g qs (max 1 qs + B) r cu u v → v.length + 1 ≤ max 1 qs →
      (u ++ v = [] → ∀ rest, ps ≠ .result :: rest) →
      ∃ r' outs, runCalls (fun r c => Block.evalOne S r c) (fun r => Block.result S r) r cs = .ok (outs, r') ∧
      List.Forall₂ (fun (c : TLWE N) (cu : List (Gsw l N) × List Bool) =>
        ∃ w es, BlockRun S g.dfa cu.1 cu.2 (some w) es ∧ c = sampleExtract w ⟨0, hN⟩ ∧
          (es ⟨0, hN⟩).length ≤ max 1 qs + B ∧
          c.phase S.sk.lvl1 = half (g.dfa.accepts cu.2) + (es ⟨0, hN⟩).sum ∧
          (decryptBit c S.sk = g.dfa.accepts cu.2 ↔ Torus.abs (es ⟨0, hN⟩).sum < 2 ^ 30 ∨
            (g.dfa.accepts cu.2 = false ∧ Torus.abs (es ⟨0, hN⟩).sum = 2 ^ 30)))
        outs ((resultWords (cu ++ r.queued) cs).zip (resultWords (u ++ v) ps)) := by
    intro cs ps h
    induction h with
    | nil => intro r cu u v _ _ _; exact ⟨r, [], rfl, .nil⟩
    | @cons c p cs ps hc _ ih =>
      intro r cu u v hI hv hne
      cases hc with
      | @feed x y hxy =>
        obtain ⟨r', cu', u', v', h1, h2, h3, h4, h5⟩ := bxinv_one hg (hB.level hg) hBN hB31 hI hint hv x y
        obtain ⟨r'', outs, k1, k2⟩ := ih r' cu' u' v' h2 h5 (by intro hn; rw [h4] at hn; simp at hn)
        refine ⟨r'', outs, ?_, ?_⟩
        · rw [runCalls, h1]; exact k1
        · rw [resultWords, resultWords, ← h3, ← h4]; exact k2
      | result =>
        have hne' : u ++ v ≠ [] := fun hn => hne hn _ rfl
        obtain ⟨r', h1, h2, h3⟩ := bxinv_eval hg (hB.level hg) hBN hB31 hI hint (by omega)
        obtain ⟨es, hrun, hes⟩ := h3.run
        obtain ⟨w, hw⟩ := Option.ne_none_iff_exists'.1 (hrun.sel_some hne')
        have hres : r.result S = .ok (sampleExtract w ⟨0, hN⟩, r') := by
          unfold Block.result
          rw [h1, Res.bind_ok, hw]
          dsimp only
          rw [sampleExtractAt_ok hN]; rfl
        obtain ⟨r'', outs, k1, k2⟩ := ih r' (cu ++ r.queued) (u ++ v) [] h3 (by simp) (by intro hn; simp at hn; exact absurd hn (by simpa using hne'))
        refine ⟨r'', sampleExtract w ⟨0, hN⟩ :: outs, ?_, ?_⟩
        · rw [runCalls, hres]
          show (runCalls _ _ r' cs >>= _) = _
          rw [k1]; rfl
        · rw [resultWords, resultWords, List.zip_cons_cons]
          rw [hw] at hrun
          have hphase : (sampleExtract w ⟨0, hN⟩).phase S.sk.lvl1 = half (g.dfa.accepts (u ++ v)) + (es ⟨0, hN⟩).sum := by
            rw [phase_sampleExtract, C86_selector_phase S g.dfa _ _ w es hrun _ (isLive_levelSet hg _) ⟨0, hN⟩]
            rfl
          refine .cons ⟨w, es, hrun, rfl, hes _, hphase, decryptBit_error _ _ _ _ hphase⟩ ?_
          rw [h2, List.append_nil, List.append_nil] at k2
          exact k2
  obtain ⟨r, h1, h2, h3⟩ := bxinv_make (S := S) (g := g) (N := N) qs (max 1 qs + B)
  obtain ⟨r', outs, h4, h5⟩ := key cs ps hcs r [] [] [] h3 (by simp) (fun _ => hfirst)
  rw [h2] at h5
  exact ⟨r, r', outs, h1, h4, h5⟩

/-- **C86 (what earlier blocks can spoil).** A block uses the result of the one before only through the selectors.  If circuit bootstrapping works within its margin, these encrypt the
place of the reached state as long as the errors that occurred in each of the coefficients they are made of add up to less than that margin. -/
theorem C86_selectors_right (S : Scheme N n l) (margin : Nat) (Enc : Gsw l N → Bool → Prop) (hcb : S.CbSound margin Enc) (d : Spec.Dfa Nat)
    (cu : List (Gsw l N)) (u : List Bool) (w : TRLWE N) (es : Fin N → List Torus) (hrun : BlockRun S d cu u (some w) es)
    (L : List Nat) (hL : IsLive d u.length L) (hk : Nat.log2 L.length + 1 < N)
    (hm : ∀ i : Fin N, 1 ≤ i.val → i.val ≤ Nat.log2 L.length + 1 → Torus.abs (es i).sum + margin < 2 ^ 29) :
    List.Forall₂ Enc (selectors S w (Nat.log2 L.length + 1) hk)
      ((List.range (Nat.log2 L.length + 1)).map (L.idxOf (d.run d.start u)).testBit) := by
  rw [← selectors_eq, List.forall₂_map_left_iff, List.forall₂_map_right_iff, List.forall₂_same]
  intro j hj
  rw [List.mem_range] at hj
  have hjN : j + 1 < N := by omega
  rw [cbAt_eq S w hjN]
  have hp := C86_selector_phase S d cu u w es hrun L hL ⟨j + 1, hjN⟩
  have hm := hm ⟨j + 1, hjN⟩ (by simp) (by simpa using hj)
  refine hcb.eighth (e := Torus.abs (es ⟨j + 1, hjN⟩).sum) ?_ hm
  rw [phase_sampleExtract, hp]
  unfold blockMsg
  rw [if_neg (by simp), if_pos (by simpa using hj)]
  simp only [Nat.add_sub_cancel]
  have := near_abs (k := 0) (Near.rfl' (x := eighth ((L.idxOf (d.run d.start u)).testBit j) + (es ⟨j + 1, hjN⟩).sum))
  rwa [Nat.zero_add] at this

/-- `biasScheme` with polynomials of degree 3 -/
def biasScheme4 : Scheme 4 2 1 :=
  let T := toyScheme 4 2 1 ⟨![1, 0, 1, 0], ![1, 0]⟩
  { T with cmux := fun g c1 c0 =>
      let b := g 0 0 0 == 1#64
      trivialTRLWE fun i => (if b then c1 else c0).phase T.sk.lvl1 i + (if b then mu8 else -mu8) }

def biasOuts (qs : Nat) (w : List Bool) : Res (List Bool) := do
  let r ← Block.make (N := 4) (l := 1) exGraph qs false
  let o ← runCalls (fun r c => Block.evalOne biasScheme4 r c) (fun r => Block.result biasScheme4 r) r
    (w.map (fun b => Call.feed (biasScheme4.encrypt 0 b)) ++ [.result])
  pure (o.1.map fun c => decryptBit c biasScheme4.sk)

/-- The hypotheses are met by this backend with queue size 2.  On 0011 the errors of the last block cancel and the answer is right, although the worst-case bound of C31 leaves no margin; on
0111 they add up and the answer is wrong. -/
example : exGraph.WF ∧ LiveBits exGraph 3 ∧
    (∀ w : List Bool, List.Forall₂ (Call.Rel fun _ _ => True)
      (w.map (fun b => Call.feed (biasScheme4.encrypt 0 b)) ++ [.result]) (w.map Call.feed ++ [.result])) ∧
    biasOuts 2 [false, false, true, true] = .ok [true] ∧ exGraph.accepts [false, false, true, true] = .ok true ∧
    biasOuts 2 [false, true, true, true] = .ok [false] ∧ exGraph.accepts [false, true, true, true] = .ok true := by
  refine ⟨exGraph_wf, liveBits_of_size exGraph_wf (by decide), fun w => ?_, by decide +kernel, by decide +kernel, by decide +kernel, by decide +kernel⟩
  refine List.rel_append ?_ (.cons .result .nil)
  rw [List.forall₂_map_left_iff, List.forall₂_map_right_iff, List.forall₂_same]
  exact fun b _ => .feed trivial

/-- Circuit bootstrapping of the ideal backend meets the hypothesis of `C86_selectors_right`. -/
example : (toyScheme 4 2 1 ⟨![1, 0, 1, 0], ![1, 0]⟩).CbSound toyNoise.cb toyEnc :=
  let h := toy_sound (N := 4) (n := 2) (l := 1) ⟨![1, 0, 1, 0], ![1, 0]⟩ (by decide) (by decide)
  ⟨h.cb_pos, h.cb_neg⟩

end Homfa
