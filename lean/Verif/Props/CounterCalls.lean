import Verif.Proof.CounterCalls
import Verif.Proof.CounterPlan
import Verif.Props.Btt

/-!
# C102: what the encrypted BTT runner does tells nothing about the bits

`bttRunQ` is the encrypted runner with any queue size on a list of ciphertexts, and then its result.
-/

namespace Homfa

variable {N n l : Nat}

/-- `bttRunC` is the same program as the runner, with its calls of the library made visible: with every backend it gives the same. -/
theorem C102_same_program (S : GateScheme N n l) (b : Btt) (queue : Nat) (cs : List (Gsw l N × (Nat → RedTree))) (trees : Nat → RedTree) :
    (bttRunC b queue cs trees).run S = bttRunQ S b queue cs trees := bttRunC_run S b queue cs trees

/-- **C102, the outcome.**  Take any table and queue size, any two backends, and two histories of equally many ciphertexts, with any valid orders in which the
parallel zero tests combine their bits.  Either both runs succeed, or both stop with the same error; and if they succeed, the same states are possible
at the end, and equally many inputs are still in the queue. -/
theorem C102_btt (S S' : GateScheme N n l) (b : Btt) (queue : Nat) {cs cs' : List (Gsw l N × (Nat → RedTree))} (h : cs.length = cs'.length)
    (hc : ∀ c ∈ cs, b.TreesFor c.2) (hc' : ∀ c ∈ cs', b.TreesFor c.2) {t t' : Nat → RedTree} (ht : b.TreesFor t) (ht' : b.TreesFor t') :
    (bttRunQ S b queue cs t).map (fun p => (p.2.live, p.2.queued.length)) =
      (bttRunQ S' b queue cs' t').map fun p => (p.2.live, p.2.queued.length) := by
  rw [← C102_same_program, ← C102_same_program]
  exact ((bttRunC_alike b queue h hc hc' ht ht').run_alike S S').map_eq fun p q hpq => by rw [hpq.live, hpq.queued]

/-- **C102, the calls.**  Under the same conditions the two runs call the same functions of the library in the same order, whether they succeed
or not. -/
theorem C102_calls (S S' : GateScheme N n l) (b : Btt) (queue : Nat) {cs cs' : List (Gsw l N × (Nat → RedTree))} (h : cs.length = cs'.length)
    (hc : ∀ c ∈ cs, b.TreesFor c.2) (hc' : ∀ c ∈ cs', b.TreesFor c.2) {t t' : Nat → RedTree} (ht : b.TreesFor t) (ht' : b.TreesFor t') :
    (bttRunC b queue cs t).kinds S = (bttRunC b queue cs' t').kinds S' := (bttRunC_alike b queue h hc hc' ht ht').kinds_eq S S'

/-- **C102, which calls.**  Let `D d` list the states possible after `d` transitions of a table, each once.  A run that succeeds calls exactly the functions
that `bttCalls` computes from the widths of the counters, the numbers of these states, the queue size and the number of inputs. -/
theorem C102_which_calls (S : GateScheme N n l) {b : Btt} (hb : b.Table) {D : Nat → List Nat} (hn : ∀ d, (D d).Nodup) (hD : ∀ d q, q ∈ D d ↔ b.Reach d q)
    {queue : Nat} (hQ : 0 < queue) {cs : List (Gsw l N × (Nat → RedTree))} (hc : ∀ c ∈ cs, b.TreesFor c.2) {t : Nat → RedTree} (ht : b.TreesFor t)
    {p : TLWE N × BttRunner N l} (hr : bttRunQ S b queue cs t = .ok p) :
    (bttRunC b queue cs t).kinds S = bttCalls (b.counters.map (·.1)) (fun d => (D d).length) queue cs.length := by
  obtain ⟨G, hG, hwf, hs, hnx⟩ := hb.toGraph_ok
  have hpos : 0 < G.size := by rw [hs]; exact hb.size_pos
  rw [← C102_same_program] at hr
  rw [((bttRunC_plan (n := n) hG hwf hpos hQ hc ht).kinds_eq hr).1]
  congr 1
  funext d
  refine ((List.perm_ext_iff_of_nodup (Graph.sorted_levelSet (by simp) d).nodup (hn d)).2 fun q => ?_).length_eq
  rw [hb.reach_iff hwf hs hnx, hD]

/-! ## The BTT of the repository's test -/

/-- the states of the test's BTT possible after `d` transitions -/
def testBttStates (d : Nat) : List Nat :=
  if d = 0 then [0] else if d = 1 then [4] else if d = 2 then [1, 3] else if d = 3 then [5, 8] else if d % 2 = 0 then [1, 2, 3] else [5, 7, 6, 8]

theorem testBttStates_step (d : Nat) : (∀ e ∈ testBtt.delta, e.src ∈ testBttStates d → e.dst ∈ testBttStates (d + 1)) ∧
    ∀ q ∈ testBttStates (d + 1), ∃ e ∈ testBtt.delta, e.src ∈ testBttStates d ∧ e.dst = q := by
  by_cases h : d < 4
  · have : ∀ d < 4, (∀ e ∈ testBtt.delta, e.src ∈ testBttStates d → e.dst ∈ testBttStates (d + 1)) ∧
        ∀ q ∈ testBttStates (d + 1), ∃ e ∈ testBtt.delta, e.src ∈ testBttStates d ∧ e.dst = q := by decide
    exact this d h
  · have e : ∀ d, 4 ≤ d → testBttStates d = if d % 2 = 0 then [1, 2, 3] else [5, 7, 6, 8] := by
      intro d hd
      unfold testBttStates
      rw [if_neg (by omega), if_neg (by omega), if_neg (by omega), if_neg (by omega)]
    rw [e d (by omega), e (d + 1) (by omega)]
    by_cases h2 : d % 2 = 0
    · rw [if_pos h2, if_neg (by omega)]; decide
    · rw [if_neg h2, if_pos (by omega)]; decide

theorem testBttStates_iff (d : Nat) : ∀ q, q ∈ testBttStates d ↔ testBtt.Reach d q := by
  induction d with
  | zero =>
    intro q
    constructor
    · intro h
      rw [show q = 0 by simpa [testBttStates] using h]
      exact .zero
    · intro h; cases h; decide
  | succ d ih =>
    obtain ⟨h1, h2⟩ := testBttStates_step d
    intro q
    constructor
    · intro h
      obtain ⟨e, a1, a2, rfl⟩ := h2 q h
      exact .step ((ih _).1 a2) a1 rfl
    · intro h
      cases h with
      | step a1 a2 a3 => exact h1 _ a2 (a3 ▸ (ih _).2 a1)

/-- **C102 for the BTT of the repository's test:** within the error budget, a run with queue size 1 on two inputs or more makes three
circuit bootstrappings for every input after the second and three for the first two together, whatever the bits. -/
theorem C102_test_btt {S : GateScheme N n l} {δ : Noise} {Enc : Gsw l N → Bool → Prop} {m g : Nat} (hS : S.Sound δ Enc m g) (h64 : 64 < N / 2)
    (he : δ.ks + δ.br + 6 * δ.cmux ≤ m) (hg : g ≤ m) (hm : 4 * m + δ.ms < 2 ^ 30) {cs : List (Gsw l N × (Nat → RedTree))} {bs : List Bool}
    (hin : List.Forall₂ (fun c x => Enc c.1 x ∧ (c.2 0).Valid 11) cs bs) {t : Nat → RedTree} (ht : (t 0).Valid 11) (hl : 2 ≤ bs.length) :
    (∃ p, bttRunQ S testBtt 1 cs t = .ok p) ∧
    ((bttRunC testBtt 1 cs t).kinds S).count .circuitBootstrapping = 3 * bs.length - 3 := by
  obtain ⟨_, r, _, h1, h2⟩ := C51_test_btt hS h64 he hg hm hin
  have hv : ∀ t : Nat → RedTree, (t 0).Valid 11 → testBtt.TreesFor t := by
    intro t ht i s hs
    cases i with
    | zero => cases hs; exact ht
    | succ i => simp [testBtt] at hs
  have hok : ∃ p, bttRunQ S testBtt 1 cs t = .ok p := by
    obtain ⟨c, h3, _⟩ := h2 t
    refine ⟨(c, r), ?_⟩
    unfold bttRun at h1
    obtain ⟨r0, a1, a2⟩ := Res.bind_eq_ok.1 h1
    unfold bttRunQ
    rw [a1, Res.bind_ok, a2, Res.bind_ok, h3]
  refine ⟨hok, ?_⟩
  obtain ⟨p, hp⟩ := hok
  have hc : ∀ c ∈ cs, testBtt.TreesFor c.2 := by
    intro c hc
    obtain ⟨i, hi, rfl⟩ := List.getElem_of_mem hc
    exact hv _ (hin.get hi (hin.length_eq ▸ hi)).2
  rw [C102_which_calls S testBtt_fit.toTable (D := testBttStates) (fun d => by unfold testBttStates; split_ifs <;> decide) testBttStates_iff
    (by decide) hc (hv t ht) hp, hin.length_eq]
  obtain ⟨k, hk⟩ := Nat.exists_eq_add_of_le hl
  rw [hk]
  unfold bttCalls
  rw [Nat.mod_one, if_pos rfl, List.append_nil, Nat.div_one]
  clear hk hl
  induction k with
  | zero => decide +kernel
  | succ k ih =>
    rw [← Nat.add_assoc, List.range_succ, List.flatMap_append, List.count_append, ih, List.flatMap_singleton]
    have e0 : testBttStates ((2 + k) * 2 + 0) = [1, 2, 3] := by
      unfold testBttStates
      rw [if_neg (by omega), if_neg (by omega), if_neg (by omega), if_neg (by omega), if_pos (by omega)]
    have e1 : testBttStates ((2 + k) * 2 + 1) = [5, 7, 6, 8] := by
      unfold testBttStates
      rw [if_neg (by omega), if_neg (by omega), if_neg (by omega), if_neg (by omega), if_neg (by omega)]
    have : bttBlockCalls (testBtt.counters.map (·.1)) (fun j => (testBttStates ((2 + k) * ((testBtt.counters.map (·.1)).length + 1) + j)).length)
        ((testBtt.counters.map (·.1)).length + 1) = bttBlockCalls [10] (fun j => if j = 0 then 3 else 4) 2 := by
      show bttBlockCalls [10] (fun j => (testBttStates ((2 + k) * 2 + j)).length) 2 = _
      unfold bttBlockCalls
      rw [show List.range 2 = [0, 1] from rfl]
      simp only [List.map_cons, List.map_nil, e0, e1]
      rfl
    rw [this]
    have : (bttBlockCalls [10] (fun j => if j = 0 then 3 else 4) 2).count .circuitBootstrapping = 3 := by decide +kernel
    rw [this]
    omega

/-- The toy backend meets the hypotheses of `C102_test_btt`, and there is an order in which to combine eleven bits. -/
example : (toyGates 130 2 1 ⟨fun _ => 1, fun _ => 0⟩).Sound toyNoise toyEnc (2 ^ 20) 1 ∧ 64 < 130 / 2 ∧
    toyNoise.ks + toyNoise.br + 6 * toyNoise.cmux ≤ 2 ^ 20 ∧ 4 * 2 ^ 20 + toyNoise.ms < 2 ^ 30 ∧
    ((List.range 10).foldl (fun t i => RedTree.node t (.leaf (i + 1))) (.leaf 0)).Valid 11 :=
  ⟨toyGates_sound _ (by decide) (by decide), by decide, by decide, by decide, by unfold RedTree.Valid; decide⟩

/-- Without counters every order is valid: any two histories of two ciphertexts on the table of `C51_violated`. -/
example (S S' : GateScheme N n l) (c1 c2 c3 c4 : Gsw l N × (Nat → RedTree)) (t t' : Nat → RedTree) :
    (bttRunC badBtt 1 [c1, c2] t).kinds S = (bttRunC badBtt 1 [c3, c4] t').kinds S' := by
  have hv : ∀ t, badBtt.TreesFor t := by intro t i s hs; simp [badBtt] at hs
  exact C102_calls S S' badBtt 1 (cs := [c1, c2]) (cs' := [c3, c4]) rfl (fun c _ => hv _) (fun c _ => hv _) (hv _) (hv _)

/-- The calls for one input with one counter of one bit, where two states are possible before each of the two transitions. -/
example : bttCalls [1] (fun _ => 2) 1 1 = [.keySwitch, .orGate, .circuitBootstrapping] ++ List.replicate 8 .cmux ++
    [.keySwitch, .circuitBootstrapping, .cmux, .cmux] ++ [.keySwitch, .keySwitch, .andNotGate, .xorGate] := by decide +kernel

end Homfa
