import Verif.Props.Backstream
import Verif.Proof.Noise

/-!
# C65: the answer is wrong only if errors that really occurred add up

C28 and C29 assume a worst-case error for every CMUX on every pair of ciphertexts.  Here nothing is assumed about CMUX: the result ciphertext is given as an
expression over the library operations (`cmuxTree`), and its error as the sum of the errors (`pathErrors`, signed) that the CMUXes on
the path of the word made, plus the error of the last refreshing (Spec/Noise.lean).
-/

namespace Homfa

variable {N n l : Nat}

/-- **C65 (OFFLINE, what is computed).** For any library operations and any ciphertexts, the result for the encrypted word `cs` is coefficient 0
of the CMUX tree of the initial state. -/
theorem C65_offline_ciphertext (S : Scheme N n l) (hN : 0 < N) (g : Graph) (hg : g.WF) (boot : Nat) (hb : 0 < boot) (cs : List (Gsw l N))
    (h31 : cs.length < 2 ^ 31) :
    ∃ r r', offlineMake g cs.length boot true false = .ok r ∧ r.evalAll S cs.reverse = .ok r' ∧
      r'.result = .ok (sampleExtract (cmuxTree S hN g.dfa.next g.dfa.accept boot cs g.dfa.start) ⟨0, hN⟩) := by
  obtain ⟨r, h1, h2, h3, h4, h5, h6, h7, h8⟩ := Backstream.make_weight (N := N) hg boot (some cs.length)
  have hnx : r.graph.nx = g.nx := by rw [h2]; rfl
  have hfin : r.graph.fin = g.fin := by rw [h2]; rfl
  have hsz : r.graph.size = g.size := by rw [h2]; rfl
  have hin : r.graph.init = g.init := by rw [h2]
  obtain ⟨r', k1, k2, _, _, _, k6⟩ := Backstream.evalAll_tree (S := S) hN (by rw [h5]; exact hb) h6
    (offDom g cs.length) cs.length
    (by intro k hk; rw [h2, h4]; exact offStates _ _ hk h31)
    (fun k => (Graph.sorted_levelSet (by simp) _).nodup)
    (fun k q hq => by rw [hsz]; exact Graph.levelSet_lt (init_lt_all hg) _ q hq)
    (by
      intro k hk q hq b
      rw [hnx]
      have : cs.length - k = (cs.length - (k + 1)) + 1 := by omega
      unfold offDom
      rw [this, Graph.levelSet, hg.mem_nextSet (Graph.levelSet_lt (init_lt_all hg) _)]
      exact ⟨q, hq, b, rfl⟩)
    (by
      intro q hq
      rw [hfin]
      exact h8 q (Graph.levelSet_lt (init_lt_all hg) _ q hq)) cs (Nat.le_refl _)
  refine ⟨r, r', h1, k1, ?_⟩
  have hq : g.init ∈ offDom g cs.length cs.length := by unfold offDom; simp [Graph.levelSet]
  have := k6 _ hq
  rw [hnx, hfin, h5] at this
  unfold Backstream.result
  show (do let w ← vat r'.weight r'.graph.init; sampleExtractAt w 0) = _
  rw [k2, hin, vat_eq_ok.2 this, Res.bind_ok, sampleExtractAt_ok hN]
  rfl

/-- The same for a runner without input size. -/
theorem reverse_tree (S : Scheme N n l) (hN : 0 < N) (g : Graph) (hg : g.WF) (boot : Nat) (hb : 0 < boot) (cs : List (Gsw l N)) :
    ∃ r r', Backstream.make g boot none true false = .ok r ∧ r.evalAll S cs = .ok r' ∧
      r'.result = .ok (sampleExtract (cmuxTree S hN g.dfa.next g.dfa.accept boot cs.reverse g.dfa.start) ⟨0, hN⟩) := by
  obtain ⟨r, h1, h2, h3, h4, h5, h6, h7, h8⟩ := Backstream.make_weight (N := N) hg boot none
  have h2 : r.graph = g := h2
  obtain ⟨r', k1, k2, _, _, _, k6⟩ := Backstream.evalAll_tree (S := S) hN (by rw [h5]; exact hb) h6
    (fun _ => List.range g.size) cs.length
    (by intro k hk; rw [h2, h4]; rfl)
    (fun k => List.nodup_range)
    (fun k q hq => by rw [h2]; exact List.mem_range.1 hq)
    (by
      intro k hk q hq b
      rw [h2]
      exact List.mem_range.2 (hg.nx_lt (List.mem_range.1 hq) b))
    (by
      intro q hq
      rw [h2]
      exact h8 q (List.mem_range.1 hq)) cs.reverse (by simp)
  rw [List.reverse_reverse] at k1
  refine ⟨r, r', h1, k1, ?_⟩
  have := k6 g.init (List.mem_range.2 hg.init_lt)
  rw [h2, h5] at this
  unfold Backstream.result
  show (do let w ← vat r'.weight r'.graph.init; sampleExtractAt w 0) = _
  rw [k2, h2, vat_eq_ok.2 this, Res.bind_ok, sampleExtractAt_ok hN]
  rfl

/-- **C65 (REVERSE, what is computed).** There is one graph, accepting the reversed words (of `g` itself when the spec is given reversed, the words of `g`
otherwise), such that the result after any encrypted inputs is coefficient 0 of the CMUX tree over this graph and the inputs, last one first. -/
theorem C65_reverse_ciphertext (S : Scheme N n l) (hN : 0 < N) (g : Graph) (hg : g.WF) (boot : Nat) (hb : 0 < boot) (isRev : Bool) :
    ∃ g' : Graph, g'.WF ∧ (∀ w, g'.accepts w = g.accepts (if isRev then w else w.reverse)) ∧
      ∀ cs : List (Gsw l N), ∃ r r', reverseMake g boot isRev true false = .ok r ∧ r.evalAll S cs = .ok r' ∧
        r'.result = .ok (sampleExtract (cmuxTree S hN g'.dfa.next g'.dfa.accept boot cs.reverse g'.dfa.start) ⟨0, hN⟩) := by
  cases isRev with
  | true => exact ⟨g, hg, fun w => rfl, fun cs => reverse_tree S hN g hg boot hb cs⟩
  | false =>
    obtain ⟨g1, a1, a2, a3⟩ := C03_reversed_language g hg
    obtain ⟨g2, b1, b2, b3⟩ := C04_minimized_language g1 a2
    refine ⟨g2, b2, fun w => (b3 w).trans (a3 w), fun cs => ?_⟩
    unfold reverseMake
    simp only [Bool.false_eq_true, if_false]
    rw [a1, Res.bind_ok, b1, Res.bind_ok]
    exact reverse_tree S hN g2 b2 boot hb cs

/-- **C65 (exact error).** Decrypting coefficient 0 of the CMUX tree of any automaton: with `e` the error of the last refreshing plus the sum of the errors of the
CMUXes on the path of `bs` since then, the phase is the right message plus `e`, and the decrypted bit is the right one exactly when `e` is less than 1/4 in
size (or exactly 1/4, when the message is 0).  `bs` may be any bits; they are what the ciphertexts are supposed to encrypt. -/
theorem C65_exact_error (S : Scheme N n l) (hN : 0 < N) (d : Spec.Dfa Nat) (boot : Nat) (cs : List (Gsw l N)) (bs : List Bool)
    (hl : cs.length = bs.length) :
    let c := sampleExtract (cmuxTree S hN d.next d.accept boot cs d.start) ⟨0, hN⟩
    let e := refreshError S hN d.next d.accept boot cs bs d.start + (pathErrors S hN d.next d.accept boot cs bs d.start).sum
    c.phase S.sk.lvl1 = half (d.accepts bs) + e ∧
      (decryptBit c S.sk = d.accepts bs ↔ Torus.abs e < 2 ^ 30 ∨ (d.accepts bs = false ∧ Torus.abs e = 2 ^ 30)) := by
  intro c e
  have h := cmuxTree_phase (S := S) hN d.next d.accept boot cs bs hl d.start
  have hp : c.phase S.sk.lvl1 = half (d.accepts bs) + e := by
    show (sampleExtract _ _).phase _ = _
    rw [phase_sampleExtract]
    exact h.trans (add_assoc _ _ _)
  exact ⟨hp, decryptBit_error c S.sk _ e hp⟩

/-- **C65 (when the answer is right).** Assume of the library only that refreshing works within its margin.  If at every refreshing on the path of `bs` the CMUX errors
that occurred since the one before add up to less than the margin, and so do those after the last one, the decrypted bit is the right one. -/
theorem C65_right (S : Scheme N n l) (δ : Noise) (hS : S.RefreshSound δ) (hN : 0 < N) (d : Spec.Dfa Nat) (boot : Nat) (cs : List (Gsw l N))
    (bs : List Bool) (hl : cs.length = bs.length) (hm : MarginsMet S hN δ d.next d.accept boot cs bs d.start)
    (hlast : δ.br + Torus.abs (pathErrors S hN d.next d.accept boot cs bs d.start).sum < 2 ^ 30) :
    decryptBit (sampleExtract (cmuxTree S hN d.next d.accept boot cs d.start) ⟨0, hN⟩) S.sk = d.accepts bs := by
  have h := near_abs (cmuxTree_near hS hN d.next d.accept boot cs bs hl d.start hm)
  refine C24_decrypts _ _ _ ?_
  rw [phase_sampleExtract]
  exact h.mono (by omega)

/-- A backend whose CMUX errs by +1/8 when it selects 1 and by -1/8 when it selects 0; everything else as in `toyScheme`. -/
def biasScheme : Scheme 2 2 1 :=
  let T := toyScheme 2 2 1 ⟨![1, 0], ![1, 1]⟩
  { T with cmux := fun g c1 c0 =>
      let b := g 0 0 0 == 1#64
      trivialTRLWE fun i => (if b then c1 else c0).phase T.sk.lvl1 i + (if b then mu8 else -mu8) }

theorem biasScheme_refresh : biasScheme.RefreshSound toyNoise :=
  let h := (toy_sound (N := 2) (n := 2) (l := 1) ⟨![1, 0], ![1, 1]⟩ (by decide) (by decide)).refreshSound
  ⟨h.iks, h.blindRotate_pos, h.blindRotate_neg⟩

/-- encryptions of a word under `biasScheme` -/
def biasInput (w : List Bool) : List (Gsw 1 2) := w.map (biasScheme.encrypt 0)

/-- On 0101 with a refreshing after every second letter the errors cancel: the hypotheses of `C65_right` are met although the worst-case bound of C28 (an error of 1/8 for every
CMUX, two of them between refreshings) does not leave a margin; and the answer is right. -/
example : ∃ hN, MarginsMet biasScheme hN toyNoise exGraph.dfa.next exGraph.dfa.accept 2 (biasInput [false, true, false, true])
      [false, true, false, true] exGraph.dfa.start ∧
    toyNoise.br + Torus.abs (pathErrors biasScheme hN exGraph.dfa.next exGraph.dfa.accept 2 (biasInput [false, true, false, true])
      [false, true, false, true] exGraph.dfa.start).sum < 2 ^ 30 ∧
    exGraph.dfa.accepts [false, true, false, true] =
      decryptBit (sampleExtract (cmuxTree biasScheme hN exGraph.dfa.next exGraph.dfa.accept 2 (biasInput [false, true, false, true])
        exGraph.dfa.start) ⟨0, hN⟩) biasScheme.sk := by
  refine ⟨by decide, ⟨⟨⟨⟨trivial, ?_⟩, ?_⟩, ?_⟩, ?_⟩, by decide +kernel, by decide +kernel⟩
  all_goals decide +kernel

/-- On 111 without refreshing the errors add up to 3/8, and the decrypted bit is wrong, as `C65_exact_error` says. -/
example : ∃ hN,
    Torus.abs (refreshError biasScheme hN exGraph.dfa.next exGraph.dfa.accept 9 (biasInput [true, true, true]) [true, true, true] exGraph.dfa.start +
      (pathErrors biasScheme hN exGraph.dfa.next exGraph.dfa.accept 9 (biasInput [true, true, true]) [true, true, true] exGraph.dfa.start).sum) = 3 * 2 ^ 29 ∧
    exGraph.dfa.accepts [true, true, true] ≠
      decryptBit (sampleExtract (cmuxTree biasScheme hN exGraph.dfa.next exGraph.dfa.accept 9 (biasInput [true, true, true])
        exGraph.dfa.start) ⟨0, hN⟩) biasScheme.sk := by
  refine ⟨by decide, by decide +kernel, by decide +kernel⟩

end Homfa
