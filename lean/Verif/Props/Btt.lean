import Verif.Proof.BttThrow
import Verif.Props.Counter
/-!
# C51: the encrypted and the plaintext BTT runner
-/

namespace Homfa

variable {N n l : Nat} {S : GateScheme N n l} {δ : Noise} {Enc : Gsw l N → Bool → Prop} {m g : Nat}

/-- **C51, the part that holds.**  Take any backend whose errors fit the budget, any BTT with `k` counters and at most `2^W`
states that is `Fit` (transitions on counter conditions have no effects; no transition increments a counter twice; a state
that is the only one possible when an input arrives is state 0), any input history whose plaintext run does not
overflow, and in which no counter has run past its initial value by 2^width when an input arrives.  Then the encrypted runner
with queue size 1 does not fail on any encryption of the history, in whatever order the parallel zero tests combine
their bits, and its decrypted result is the result of the plaintext runner; asking for the result changes nothing.

Not covered: BTTs outside `Fit`, for which the claim is false (`C51_violated`). -/
theorem C51_agree_partial (hS : S.Sound δ Enc m g) {b : Btt} (hb : b.Fit) {W : Nat} (hW : b.size ≤ 2 ^ W) (hW' : W < 31)
    (h64 : 64 < N / 2) (hK : N / 2 + b.counters.length ≤ N)
    (he : δ.ks + δ.br + (b.counters.length + 1 + W) * δ.cmux ≤ m) (hg : g ≤ m) (hm : 4 * m + δ.ms < 2 ^ 30)
    {cs : List (Gsw l N × (Nat → RedTree))} {bs : List Bool} (hin : List.Forall₂ (BttInput b Enc) cs bs)
    {p : BttPlain} (hp : plainRun b bs = .ok p)
    (hsm : ∀ u x v, bs = u ++ x :: v → ∀ p, plainRun b u = .ok p → p.Small) :
    ∃ r, bttRun S b cs = .ok r ∧ ∀ trees, ∃ c, r.result S trees = .ok (c, r) ∧ tlweSymDecrypt c S.sk = p.accept := by
  obtain ⟨G, _, h2, h3, h4, r0, h5, h6⟩ := bttMake_ok (S := S) (δ := δ) (W := W) (l := l) hb h64
  obtain ⟨r, k1, k2⟩ := bttRun_inv hS hb h2 h3 h4 h64 hK hW hW' he hg hm hin [] (BttPlain.make b) r0 rfl h6 hsm p hp
  refine ⟨r, ?_, fun trees => ?_⟩
  · unfold bttRun
    rw [h5, Res.bind_ok, k1]
  · have hev : r.evalQueued S trees = .ok r := by
      unfold BttRunner.evalQueued
      rw [k2.queued]
      rfl
    unfold BttRunner.result
    rw [hev, Res.bind_ok]
    unfold Weight.getAccept
    have hN : 0 < N := by omega
    rw [sampleExtractAt_ok hN, Res.bind_ok]
    refine ⟨_, rfl, ?_⟩
    unfold tlweSymDecrypt
    rw [phase_sampleExtract]
    exact sign_eighth (k2.gen.acc ⟨0, hN⟩ rfl) (by omega)

/-! ## The BTT of the repository's test -/

/-- The BTT of `test` (src/counter.cpp:657-684). -/
def testBtt : Btt where
  delta := [
    ⟨0, false, 4, false, [], [], some 0⟩, ⟨0, true, 4, false, [], [], some 0⟩,
    ⟨1, false, 5, false, [], [], some 0⟩, ⟨1, true, 5, false, [], [], some 0⟩,
    ⟨2, false, 7, false, [], [], some 0⟩, ⟨2, true, 6, false, [], [], some 0⟩,
    ⟨3, false, 8, false, [], [], some 0⟩, ⟨3, true, 8, false, [], [], some 0⟩,
    ⟨4, false, 3, false, [], [], none⟩, ⟨4, true, 1, true, [], [], none⟩,
    ⟨5, false, 2, true, [0], [], none⟩, ⟨5, true, 1, true, [], [], none⟩,
    ⟨6, false, 3, false, [], [], none⟩, ⟨6, true, 1, true, [], [], none⟩,
    ⟨7, false, 2, true, [], [0], none⟩, ⟨7, true, 1, true, [], [], none⟩,
    ⟨8, false, 3, false, [], [], none⟩, ⟨8, true, 1, true, [], [], none⟩]
  counters := [(10, 10#64)]

theorem testBtt_reach {d q : Nat} (h : testBtt.Reach d q) : q < 9 ∧ (d % 2 = 0 → q < 4) ∧ (d % 2 = 1 → 4 ≤ q) := by
  induction h with
  | zero => decide
  | @step d q e h1 h2 h3 ih =>
    have key : ∀ e ∈ testBtt.delta, e.dst < 9 ∧ (e.src < 4 → 4 ≤ e.dst) ∧ (4 ≤ e.src → e.dst < 4) := by decide
    obtain ⟨k1, k2, k3⟩ := key e h2
    subst h3
    refine ⟨k1, fun h => k3 (ih.2.2 (by omega)), fun h => k2 (ih.2.1 (by omega))⟩

theorem testBtt_both (t : Nat) : testBtt.Reach ((t + 1) * 2) 1 ∧ testBtt.Reach ((t + 1) * 2) 3 := by
  induction t with
  | zero =>
    have h4 : testBtt.Reach 1 4 := .step (e := ⟨0, false, 4, false, [], [], some 0⟩) .zero (by decide) rfl
    exact ⟨.step (e := ⟨4, true, 1, true, [], [], none⟩) h4 (by decide) rfl,
      .step (e := ⟨4, false, 3, false, [], [], none⟩) h4 (by decide) rfl⟩
  | succ t ih =>
    have h8 : testBtt.Reach ((t + 1) * 2 + 1) 8 := .step (e := ⟨3, false, 8, false, [], [], some 0⟩) ih.2 (by decide) rfl
    rw [show (t + 1 + 1) * 2 = (t + 1) * 2 + 1 + 1 by omega]
    exact ⟨.step (e := ⟨8, true, 1, true, [], [], none⟩) h8 (by decide) rfl,
      .step (e := ⟨8, false, 3, false, [], [], none⟩) h8 (by decide) rfl⟩

/-- `Fit` is not vacuous: the BTT of the repository's test has it. -/
theorem testBtt_fit : testBtt.Fit where
  made := by rfl
  nonempty := by decide
  dst := by decide
  reset := by decide
  inc := by decide
  once := by decide
  width := by decide
  silent := by
    intro d q hd hr e he hs
    have hlt : e.src < 4 := by rw [hs]; exact (testBtt_reach hr).2.1 (by simpa [testBtt] using hd)
    have key : ∀ e ∈ testBtt.delta, e.src < 4 → e.accept = false ∧ e.reset = [] ∧ e.inc = [] := by decide
    exact key e he hlt
  single := by
    intro t q hq hu
    cases t with
    | zero =>
      rw [Nat.zero_mul] at hq
      cases hq
      rfl
    | succ t =>
      have h1 := hu 1 (testBtt_both t).1
      have h3 := hu 3 (testBtt_both t).2
      omega

/-- On the BTT of the repository's test the plaintext runner never overflows and its counter never exceeds 10. -/
theorem testBtt_small (bs : List Bool) : ∃ p y, plainRun testBtt bs = .ok p ∧ p.btt = testBtt ∧ p.cur < 4 ∧ p.counter = [y] ∧ y ≤ 10 := by
  induction bs using List.reverseRecOn with
  | nil => exact ⟨_, 0, rfl, rfl, by decide, rfl, by decide⟩
  | append_singleton bs x ih =>
    obtain ⟨p, y, h1, h2, h3, h4, h5⟩ := ih
    rw [plainRun_snoc, h1, Res.bind_ok]
    obtain ⟨b, cur, acc, cnt⟩ := p
    dsimp only at h2 h3 h4
    subst h2 h4
    have key : ∀ cur < 4, ∀ y ≤ 10, ∀ x acc, ((BttPlain.mk testBtt cur acc [y]).evalOne x).toOption.any (fun p =>
        decide (p.cur < 4) && p.counter.length == 1 && p.counter.all (· ≤ 10)) = true := by decide
    have := key cur h3 y h5 x acc
    cases hr : (BttPlain.mk testBtt cur acc [y]).evalOne x with
    | error e => rw [hr] at this; cases this
    | ok p =>
      rw [hr] at this
      simp only [Except.toOption, Option.any_some, Bool.and_eq_true, decide_eq_true_eq, beq_iff_eq, List.all_eq_true] at this
      obtain ⟨⟨e1, e2⟩, e3⟩ := this
      obtain ⟨z, hz⟩ := List.length_eq_one_iff.1 e2
      have hb : p.btt = testBtt := by
        obtain ⟨a, _⟩ := evalOne_plain testBtt_fit rfl (by show cur < 9; omega) rfl hr
        exact a
      exact ⟨p, z, rfl, hb, e1, hz, by simpa using e3 z (by rw [hz]; simp)⟩

/-- **C51 for the BTT of the repository's test, for every input history.** -/
theorem C51_test_btt (hS : S.Sound δ Enc m g) (h64 : 64 < N / 2) (he : δ.ks + δ.br + 6 * δ.cmux ≤ m) (hg : g ≤ m)
    (hm : 4 * m + δ.ms < 2 ^ 30) {cs : List (Gsw l N × (Nat → RedTree))} {bs : List Bool}
    (hin : List.Forall₂ (fun c x => Enc c.1 x ∧ (c.2 0).Valid 11) cs bs) :
    ∃ p r, plainRun testBtt bs = .ok p ∧ bttRun S testBtt cs = .ok r ∧
      ∀ trees, ∃ c, r.result S trees = .ok (c, r) ∧ tlweSymDecrypt c S.sk = p.accept := by
  obtain ⟨p, _, hp, _⟩ := testBtt_small bs
  obtain ⟨r, h1, h2⟩ := C51_agree_partial hS testBtt_fit (W := 4) (by decide) (by decide) h64 (by show N / 2 + 1 ≤ N; omega)
    he hg hm (hin.imp (fun c x h => ⟨h.1, fun i s hs => by
      cases i with
      | zero =>
        have : s = (10, 10#64) := by simpa [testBtt] using hs.symm
        subst this; exact h.2
      | succ i => simp [testBtt] at hs⟩)) hp (by
      intro u _ _ _ q hq
      obtain ⟨q', y, k1, k2, _, k4, k5⟩ := testBtt_small u
      rw [hq] at k1
      cases k1
      intro i s hs x hx
      rw [k2] at hs
      rw [k4] at hx
      cases i with
      | zero =>
        have : s = (10, 10#64) := by simpa [testBtt] using hs.symm
        subst this
        have : x = y := by simpa using hx.symm
        subst this
        show x < 10 + 2 ^ 10
        omega
      | succ i => simp at hx)
  exact ⟨p, r, hp, h1, h2⟩

/-- The toy backend meets the hypotheses of `C51_test_btt`. -/
example : (toyGates 130 2 1 ⟨fun _ => 1, fun _ => 0⟩).Sound toyNoise toyEnc (2 ^ 20) 1 ∧ 64 < 130 / 2 ∧
    toyNoise.ks + toyNoise.br + 6 * toyNoise.cmux ≤ 2 ^ 20 ∧ 4 * 2 ^ 20 + toyNoise.ms < 2 ^ 30 ∧
    (plainRun testBtt [true, false, false, true, true]).toOption.map (·.accept) = some true ∧
    (plainRun testBtt [false, false]).toOption.map (·.accept) = some false :=
  ⟨toyGates_sound _ (by decide) (by decide), by decide, by decide, by decide, by decide, by decide⟩

/-! ## The violation -/

/-- Two states; state 0 leads to state 1, which accepts for ever.  No counters. -/
def badBtt : Btt where
  delta := [⟨0, false, 1, true, [], [], none⟩, ⟨0, true, 1, true, [], [], none⟩, ⟨1, false, 1, true, [], [], none⟩,
    ⟨1, true, 1, true, [], [], none⟩]
  counters := []

/-- **C51 is false of the code:** with the BTT above, whatever the backend and the ciphertexts, the encrypted runner throws
`std::bad_optional_access` at the second input, because the only live state is 1 and the selection reads the weight
of state 0; the plaintext runner accepts. -/
theorem C51_violated (S : GateScheme 1024 n l) (c1 c2 : Gsw l 1024 × (Nat → RedTree)) (x y : Bool) :
    Btt.make 0 badBtt.delta badBtt.counters = .ok badBtt ∧
    (∃ p, plainRun badBtt [x, y] = .ok p ∧ p.accept = true) ∧
    bttRun S badBtt [c1, c2] = .error .badOptional := by
  refine ⟨by rfl, ?_, by with_unfolding_all rfl⟩
  cases x <;> cases y <;> exact ⟨_, rfl, rfl⟩

/-- **When C51 fails for sure.**  Take any table with `k` counters, and a number of inputs after which one state only is possible, which is not state 0.
If state 0 is not possible an even number of transitions later either, within the transitions of the next input, the encrypted runner
fails on every history that goes on, whatever the backend and the ciphertexts.  (If it is possible, the runner goes on with a weight
that an earlier layer has left behind.) -/
theorem C51_single_fails (S : GateScheme N n l) {b : Btt} (hb : b.Table) {t q : Nat} (hq : q ≠ 0)
    (h1 : ∀ q', b.Reach (t * (b.counters.length + 1)) q' ↔ q' = q)
    (h2 : ∀ j, 0 < j → 2 * j ≤ b.counters.length + 1 → ¬ b.Reach (t * (b.counters.length + 1) + 2 * j) 0)
    (cs : List (Gsw l N × (Nat → RedTree))) (hl : t < cs.length) (r : BttRunner N l) : bttRun S b cs ≠ .ok r := by
  intro h
  obtain ⟨j, h3, h4⟩ := bttRun_single hb h hl h1
  cases j with
  | zero => exact hq ((h1 0).1 h4).symm
  | succ j => exact h2 (j + 1) (by omega) h3 h4

/-- On a table without counters whose transitions touch no counters the plaintext runner takes every input. -/
theorem plainRun_total {b : Btt} (hb : b.Table) (hk : b.counters = []) (he : ∀ e ∈ b.delta, e.reset = [] ∧ e.inc = []) (bs : List Bool) :
    ∃ p, plainRun b bs = .ok p ∧ p.btt = b ∧ p.cur < b.size := by
  induction bs using List.reverseRecOn with
  | nil => exact ⟨_, rfl, rfl, hb.size_pos⟩
  | append_singleton bs x ih =>
    obtain ⟨p, h1, h2, h3⟩ := ih
    rw [plainRun_snoc, h1, Res.bind_ok]
    have h4 : (if x = true then b.edge p.cur true else b.edge p.cur false) = b.edge p.cur x := by cases x <;> rfl
    obtain ⟨e1, e2⟩ := he _ (hb.edge_mem h3 x)
    refine ⟨{ p with cur := (b.edge p.cur x).dst, accept := (b.edge p.cur x).accept }, ?_, h2, hb.dst _ (hb.edge_mem h3 x)⟩
    unfold BttPlain.evalOne
    rw [h2, hk]
    simp only [List.length_nil, List.range_zero, List.foldlM_nil, Res.pure_eq, Res.bind_ok]
    rw [hb.getEdge_ok h3, Res.bind_ok]
    dsimp only
    rw [h4, e1, e2]
    rfl

/-- **C51 without counters, exactly.**  On a table without counters the two runners agree on all histories, under encryption and decryption with any backend
within the budget, if and only if a state that is the only one possible after some number of inputs is always state 0. -/
theorem C51_exact (hS : S.Sound δ Enc m g) {b : Btt} (hb : b.Table) (hk : b.counters = [])
    (hef : ∀ e ∈ b.delta, e.reset = [] ∧ e.inc = []) {W : Nat} (hW : b.size ≤ 2 ^ W) (hW' : W < 31)
    (h64 : 64 < N / 2) (he : δ.ks + δ.br + (1 + W) * δ.cmux ≤ m) (hg : g ≤ m) (hm : 4 * m + δ.ms < 2 ^ 30) :
    (∀ (cs : List (Gsw l N × (Nat → RedTree))) (bs : List Bool), List.Forall₂ (fun c x => Enc c.1 x) cs bs →
      ∃ p r, plainRun b bs = .ok p ∧ bttRun S b cs = .ok r ∧ ∀ trees, ∃ c, r.result S trees = .ok (c, r) ∧ tlweSymDecrypt c S.sk = p.accept) ↔
    ∀ t q, (∀ q', b.Reach t q' ↔ q' = q) → q = 0 := by
  have hlen : b.counters.length = 0 := by rw [hk]; rfl
  constructor
  · intro h t q hq
    by_contra hne
    obtain ⟨p, r, _, h2, _⟩ := h ((List.range (t + 1)).map fun i => (S.encrypt i true, fun _ => .leaf 0)) ((List.range (t + 1)).map fun _ => true) (by
      rw [List.forall₂_map_left_iff, List.forall₂_map_right_iff]
      exact List.forall₂_same.2 (fun i _ => hS.base.encrypt i true))
    exact C51_single_fails S hb (t := t) hne (by rw [hlen]; simpa using hq) (by intro j h1 h2; omega) _ (by simp) r h2
  · intro h cs bs hin
    obtain ⟨p, hp, _⟩ := plainRun_total hb hk hef bs
    have hfit : b.Fit := { hb with
      reset := fun e he i hi => by rw [(hef e he).1] at hi; simp at hi
      inc := fun e he i hi => by rw [(hef e he).2] at hi; simp at hi
      once := fun e he => by rw [(hef e he).2]; exact List.nodup_nil
      width := fun s hs => by rw [hk] at hs; simp at hs
      silent := fun d q hd => by rw [hlen] at hd; omega
      single := fun t q h1 h2 => h (t * (b.counters.length + 1)) q (fun q' => ⟨h2 q', fun e => e ▸ h1⟩) }
    obtain ⟨r, h1, h2⟩ := C51_agree_partial hS hfit hW hW' h64 (by rw [hlen]; omega) (by rw [hlen]; simpa using he) hg hm
      (hin.imp fun c x h => ⟨h, fun i s hs => by rw [hk] at hs; simp at hs⟩) hp (by
        intro u _ _ _ p hp i s hs
        have : p.btt = b := by
          obtain ⟨p', k1, k2, _⟩ := plainRun_total hb hk hef u
          rw [hp] at k1; cases k1; exact k2
        rw [this, hk] at hs; simp at hs)
    exact ⟨p, r, hp, h1, h2⟩

/-- The bad table above meets the hypotheses of `C51_single_fails` after one input. -/
example : badBtt.Table ∧ ∀ q', badBtt.Reach (1 * (badBtt.counters.length + 1)) q' ↔ q' = 1 := by
  refine ⟨⟨by rfl, by decide, by decide⟩, fun q' => ⟨fun h => ?_, fun h => ?_⟩⟩
  · cases h with
    | step h1 h2 h3 =>
      have : ∀ e ∈ badBtt.delta, e.dst = 1 := by decide
      exact this _ h2
  · subst h
    exact .step (e := ⟨0, false, 1, true, [], [], none⟩) .zero (by decide) rfl

/-- State 0 leads to state 1, state 1 to state 2 and back; one counter. -/
def loopBtt : Btt where
  delta := [⟨0, false, 1, false, [], [], none⟩, ⟨0, true, 1, false, [], [], none⟩, ⟨1, false, 2, true, [], [], none⟩,
    ⟨1, true, 2, true, [], [], none⟩, ⟨2, false, 1, false, [], [], none⟩, ⟨2, true, 1, false, [], [], none⟩]
  counters := [(4, 3#64)]

/-- A table with a counter to which `C51_single_fails` applies after one input. -/
example : loopBtt.Table ∧ (∀ q', loopBtt.Reach (1 * (loopBtt.counters.length + 1)) q' ↔ q' = 2) ∧
    ¬ loopBtt.Reach (1 * (loopBtt.counters.length + 1) + 2 * 1) 0 := by
  have no0 : ∀ {d q}, loopBtt.Reach d q → 0 < d → q ≠ 0 := by
    intro d q h hd
    cases h with
    | zero => omega
    | step _ h2 _ => exact (by decide : ∀ e ∈ loopBtt.delta, e.dst ≠ 0) _ h2
  have h1 : ∀ q', loopBtt.Reach 1 q' ↔ q' = 1 := by
    intro q'
    constructor
    · intro h
      cases h with
      | step h1 h2 h3 =>
        cases h1
        exact (by decide : ∀ e ∈ loopBtt.delta, e.src = 0 → e.dst = 1) _ h2 h3
    · rintro rfl
      exact .step (e := ⟨0, false, 1, false, [], [], none⟩) .zero (by decide) rfl
  refine ⟨⟨by rfl, by decide, by decide⟩, fun q' => ⟨fun h => ?_, fun h => ?_⟩, fun h => no0 h (by decide) rfl⟩
  · cases h with
    | step h2 h3 h4 =>
      rw [(h1 _).1 h2] at h4
      exact (by decide : ∀ e ∈ loopBtt.delta, e.src = 1 → e.dst = 2) _ h3 h4
  · subst h
    exact .step (e := ⟨1, false, 2, true, [], [], none⟩) ((h1 1).2 rfl) (by decide) rfl

/-- Two tables for `C51_exact`: in the first, states 0 and 1 are possible after every input but no input; the bad table above fails. -/
example : (∀ t q, (∀ q', Btt.Reach ⟨[⟨0, false, 0, false, [], [], none⟩, ⟨0, true, 1, true, [], [], none⟩, ⟨1, false, 0, false, [], [], none⟩,
    ⟨1, true, 1, true, [], [], none⟩], []⟩ t q' ↔ q' = q) → q = 0) ∧ ¬ ∀ t q, (∀ q', badBtt.Reach t q' ↔ q' = q) → q = 0 := by
  refine ⟨fun t q h => ?_, fun h => ?_⟩
  · have : ∀ t, Btt.Reach ⟨[⟨0, false, 0, false, [], [], none⟩, ⟨0, true, 1, true, [], [], none⟩, ⟨1, false, 0, false, [], [], none⟩,
        ⟨1, true, 1, true, [], [], none⟩], []⟩ t 0 := by
      intro t
      induction t with
      | zero => exact .zero
      | succ t ih => exact .step (e := ⟨0, false, 0, false, [], [], none⟩) ih (by decide) rfl
    exact ((h 0).1 (this t)).symm
  · have := h 1 1 (fun q' => ⟨fun h => ?_, fun h => ?_⟩)
    · cases this
    · cases h with
      | step h1 h2 h3 => exact (by decide : ∀ e ∈ badBtt.delta, e.dst = 1) _ h2
    · subst h
      exact .step (e := ⟨0, false, 1, true, [], [], none⟩) .zero (by decide) rfl

end Homfa
