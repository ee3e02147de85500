import Verif.Props.Determinize
import Verif.Props.Minimize
import Verif.Proof.Online1
import Verif.Proof.FlutInv
import Verif.Model.Block

/-!
# C44 (first online runner) and C45 (sanitization)
-/

namespace Homfa

variable {N n l : Nat} {S : Scheme N n l} {δ : Noise} {Enc : Gsw l N → Bool → Prop}

/-- The error of a weight of the first online runner `j` inputs after the last bootstrapping, for a graph with `m` states: each input adds up
to `m` weights and costs one CMUX. -/
def online1Err (δ : Noise) (m : Nat) : Nat → Nat
  | 0 => δ.br
  | j + 1 => m * online1Err δ m j + δ.cmux

/-- feed a sequence of ciphertexts -/
def Online1.evalAll (S : Scheme N n l) (r : Online1 N) (inputs : List (Gsw l N)) : Res (Online1 N) :=
  inputs.foldlM (fun r c => r.evalOne S c) r

theorem oinv_all (hS : S.Sound δ Enc) {g : Graph} (hg : g.WF) (hn : 1 < g.size) (hn2 : g.size ≤ 8000) (hN : 0 < N)
    (hbud : online1Err δ g.size (Nat.log g.size 8000) + δ.ks + δ.ms < 2 ^ 29) {cs : List (Gsw l N)} {v : List Bool} (hcs : List.Forall₂ Enc cs v)
    {r : Online1 N} {u : List Bool} (h : OInv S g (online1Err δ g.size) r u) :
    ∃ r', r.evalAll S cs = .ok r' ∧ OInv S g (online1Err δ g.size) r' (u ++ v) := by
  induction hcs generalizing r u with
  | nil => exact ⟨r, rfl, by rw [List.append_nil]; exact h⟩
  | @cons c b cs v hc _ ih =>
    obtain ⟨r1, h1, h2⟩ := oinv_one hS hg hn hn2 hN (Nat.le_refl _) (fun _ => Nat.le_refl _) hbud h hc
    obtain ⟨r2, h3, h4⟩ := ih h2
    refine ⟨r2, ?_, ?_⟩
    · unfold Online1.evalAll
      rw [List.foldlM_cons, h1]
      exact h3
    · rw [List.append_assoc] at h4
      exact h4

theorem online1Err_mono (δ : Noise) {m : Nat} (hm : 0 < m) {i j : Nat} (h : i ≤ j) : online1Err δ m i ≤ online1Err δ m j := by
  induction h with
  | refl => exact Nat.le_refl _
  | @step k _ ih =>
    refine Nat.le_trans ih ?_
    rw [online1Err]
    have : 1 * online1Err δ m k ≤ m * online1Err δ m k := Nat.mul_le_mul_right _ hm
    omega

/-- **C44 (weights).** For a graph with 2 to 8000 states the runner accepts every word.  Afterwards the weight of state `q` has, in its
constant coefficient, a positive phase if `q` is the state reached and a negative one otherwise. -/
theorem C44_online1_weights (hS : S.Sound δ Enc) (hN : 0 < N) (g : Graph) (hg : g.WF) (hn : 1 < g.size) (hn2 : g.size ≤ 8000)
    (hbud : online1Err δ g.size (Nat.log g.size 8000) + δ.ks + δ.ms < 2 ^ 29)
    (w : List Bool) (cs : List (Gsw l N)) (hcs : List.Forall₂ Enc cs w) :
    ∃ r r' : Online1 N, Online1.make g true false = .ok r ∧ r.evalAll S cs = .ok r' ∧ r'.weight.length = g.size ∧
      ∀ q < g.size, ∃ x : TRLWE N, r'.weight[q]? = some x ∧
        (g.runWord g.initialState w = .ok q → 0 < (x.phase S.sk.lvl1 ⟨0, hN⟩).toInt) ∧
        (g.runWord g.initialState w ≠ .ok q → (x.phase S.sk.lvl1 ⟨0, hN⟩).toInt < 0) := by
  obtain ⟨r, h1, h2⟩ := (online1_make (S := S) (g := g) true).2 hn hn2 rfl
  obtain ⟨r', h3, h4⟩ := oinv_all hS hg hn hn2 hN hbud hcs (h2 _)
  rw [List.nil_append] at h4
  refine ⟨r, r', h1, h3, h4.wlen, fun q hq => ?_⟩
  obtain ⟨x, hx, hp⟩ := h4.weight q hq
  have hp := hp ⟨0, hN⟩ rfl
  have hlog : 0 < Nat.log g.size 8000 := Nat.log_pos (by omega) hn2
  have hE : online1Err δ g.size (w.length % r'.interval) < 2 ^ 29 := by
    rw [h4.interval]
    have := online1Err_mono δ (by omega : 0 < g.size) (Nat.le_of_lt (Nat.mod_lt w.length hlog))
    omega
  refine ⟨x, hx, fun hr => ?_, fun hr => ?_⟩
  · have hq' : q = w.foldl g.nx g.init := by
      rw [show g.initialState = g.init from rfl, (hg.run_ok hg.init_lt w).1] at hr
      exact (Except.ok.inj hr).symm
    rw [decide_eq_true hq'] at hp
    have := toInt_pos_of_near (m := 2 ^ 29) (by decide) hp hE (by omega)
    omega
  · have hq' : ¬ q = w.foldl g.nx g.init := by
      intro he
      rw [show g.initialState = g.init from rfl, (hg.run_ok hg.init_lt w).1] at hr
      exact hr (by rw [he])
    rw [decide_eq_false hq'] at hp
    have := toInt_neg_of_near (m := 2 ^ 29) (by decide) hp hE (by omega)
    omega

/-- **C44 (result).** After any word, `result()` fails an assertion. -/
theorem C44_online1_result_aborts (hS : S.Sound δ Enc) (hN : 0 < N) (g : Graph) (hg : g.WF) (hn : 1 < g.size) (hn2 : g.size ≤ 8000)
    (hbud : online1Err δ g.size (Nat.log g.size 8000) + δ.ks + δ.ms < 2 ^ 29)
    (w : List Bool) (cs : List (Gsw l N)) (hcs : List.Forall₂ Enc cs w) :
    ∃ r r' : Online1 N, Online1.make g true false = .ok r ∧ r.evalAll S cs = .ok r' ∧ r'.result = .error .assertFail := by
  obtain ⟨r, h1, h2⟩ := (online1_make (S := S) (g := g) true).2 hn hn2 rfl
  obtain ⟨r', h3, h4⟩ := oinv_all hS hg hn hn2 hN hbud hcs (h2 _)
  exact ⟨r, r', h1, h3, online1_result hg h4⟩

/-- **C44 (result, any state).** Whatever the runner holds, `result()` never returns. -/
theorem C44_online1_never_answers (r : Online1 N) (c : TLWE N) : r.result ≠ .ok c := by
  intro h
  unfold Online1.result at h
  obtain ⟨_, _, h⟩ := Res.bind_eq_ok.1 h
  cases h

/-- **C44 (sizes).** Construction aborts for graphs with fewer than 2 or more than 8000 states. -/
theorem C44_online1_sizes (g : Graph) (hasKey : Bool) (h : g.size < 2 ∨ 8000 < g.size) :
    Online1.make (N := N) g hasKey false = .error .assertFail :=
  (online1_make (S := toyScheme N 0 0 ⟨fun _ => 0, fun _ => 0⟩) (g := g) hasKey).1 (by omega)

/-- The hypotheses of the C44 theorems are met by a concrete backend and the example graph. -/
example : ∃ (S : Scheme 4 2 1) (δ : Noise) (Enc : Gsw 1 4 → Bool → Prop) (cs : List (Gsw 1 4)),
    S.Sound δ Enc ∧ exGraph.WF ∧ 1 < exGraph.size ∧ exGraph.size ≤ 8000 ∧
    online1Err δ exGraph.size (Nat.log exGraph.size 8000) + δ.ks + δ.ms < 2 ^ 29 ∧ List.Forall₂ Enc cs [false, true, true] ∧
    exGraph.runWord exGraph.initialState [false, true, true] = .ok 2 := by
  have hs := toy_sound (N := 4) (n := 2) (l := 1) ⟨![1, 0, 1, 0], ![1, 0]⟩ (by decide) (by decide)
  exact ⟨_, toyNoise, toyEnc, [Scheme.encrypt _ 0 false, Scheme.encrypt _ 0 true, Scheme.encrypt _ 0 true], hs, exGraph_wf, by decide, by decide,
    by decide, .cons (hs.encrypt _ _) (.cons (hs.encrypt _ _) (.cons (hs.encrypt _ _) .nil)), by decide⟩

/-! ## C45 -/

/-- **C45.** Whatever the other arguments are, no constructor called with `sanitize_result = true` returns an object. -/
theorem C45_sanitize_no_object (g : Graph) (a b c : Nat) (isz : Option Nat) (hasKey rev : Bool) :
    (∀ r : Backstream N, Backstream.make g a isz hasKey true ≠ .ok r) ∧
    (∀ r : Backstream N, offlineMake g a b hasKey true ≠ .ok r) ∧
    (∀ r : Backstream N, reverseMake g a rev hasKey true ≠ .ok r) ∧
    (∀ r : Flut N l, Flut.make g a b c true ≠ .ok r) ∧
    (∀ r : Block N l, Block.make g a true ≠ .ok r) ∧
    (∀ r : Online1 N, Online1.make g hasKey true ≠ .ok r) := by
  have hB : ∀ (g : Graph) (a : Nat) (isz : Option Nat) (r : Backstream N), Backstream.make g a isz hasKey true ≠ .ok r := by
    intro g a isz r h
    unfold Backstream.make at h
    obtain ⟨_, _, h⟩ := Res.bind_eq_ok.1 h
    cases h
  refine ⟨fun r => hB _ _ _ r, fun r => hB _ _ _ r, ?_, ?_, ?_, ?_⟩
  · intro r h
    unfold reverseMake at h
    obtain ⟨_, _, h⟩ := Res.bind_eq_ok.1 h
    exact hB _ _ _ r h
  · intro r h; cases h
  · intro r h; cases h
  · intro r h
    unfold Online1.make at h
    obtain ⟨_, _, h⟩ := Res.bind_eq_ok.1 h
    cases h

/-- **C45 (how).** With a key and a well-formed graph each of them exits through `error::die`. -/
theorem C45_sanitize_exits (g : Graph) (hg : g.WF) (a b c : Nat) (isz : Option Nat) (rev : Bool) :
    Backstream.make (N := N) g a isz true true = .error .die ∧
    offlineMake (N := N) g a b true true = .error .die ∧
    reverseMake (N := N) g a rev true true = .error .die ∧
    Flut.make (N := N) (l := l) g a b c true = .error .die ∧
    Block.make (N := N) (l := l) g a true = .error .die ∧
    Online1.make (N := N) g true true = .error .die := by
  refine ⟨rfl, rfl, ?_, rfl, rfl, rfl⟩
  unfold reverseMake
  cases rev with
  | true => rfl
  | false =>
    obtain ⟨g1, a1, a2, _⟩ := C03_reversed_language g hg
    obtain ⟨g2, b1, _⟩ := C04_minimized_language g1 a2
    simp only [Bool.false_eq_true, if_false]
    rw [a1, Res.bind_ok, b1, Res.bind_ok]
    rfl

/-- The same arguments without sanitization give objects, so C45 is about the flag. -/
example : (∃ r, Backstream.make (N := 4) exGraph 2 none true false = .ok r) ∧ (∃ r, Flut.make (N := 4) (l := 1) exGraph 3 2 1 false = .ok r) ∧
    (∃ r, Block.make (N := 4) (l := 1) exGraph 2 false = .ok r) ∧ ∃ r, Online1.make (N := 4) exGraph true false = .ok r := by
  obtain ⟨r, h1, _⟩ := Backstream.make_ok (N := 4) (n := 2) (l := 1) exGraph_wf (by decide) 2 none
  obtain ⟨r3, h3, _⟩ := flut_make (N := 4) (l := 1) exGraph_wf 3 2 1 (by decide)
  obtain ⟨r2, h2, _⟩ := (online1_make (N := 4) (S := toyScheme 4 2 1 ⟨![1, 0, 1, 0], ![1, 0]⟩) (g := exGraph) true).2 (by decide) (by decide) rfl
  exact ⟨⟨r, h1⟩, ⟨r3, h3⟩, ⟨_, rfl⟩, ⟨r2, h2⟩⟩

end Homfa
