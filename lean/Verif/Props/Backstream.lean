import Verif.Props.Determinize
import Verif.Props.Minimize
import Verif.Props.Tfhe
import Verif.Proof.Backstream

/-!
# C28, C29, C48 (OFFLINE and REVERSE runners)

For every backend satisfying `Scheme.Sound` (Spec/Scheme.lean); `List.Forall₂ Enc cs w` says that the ciphertexts `cs` encrypt
the bits of `w`, one by one.
-/

namespace Homfa

variable {N n l : Nat} {S : Scheme N n l} {δ : Noise} {Enc : Gsw l N → Bool → Prop}

/-- the states updated by the OFFLINE runner after `k` of `m` inputs -/
def offDom (g : Graph) (m k : Nat) : List Nat := g.levelSet [g.init] (m - k)

theorem init_lt_all {g : Graph} (hg : g.WF) : ∀ q ∈ [g.init], q < g.size := by
  intro q hq; simp at hq; subst hq; exact hg.init_lt

theorem offStates {g : Graph} (m k : Nat) (hk : k < m) (hm : m < 2 ^ 31) :
    evalStates { g with statesAtDepth := (List.range m).map (g.levelSet [g.init]) } (some m) k = .ok (offDom g m (k + 1)) := by
  unfold evalStates
  dsimp only
  rw [narrow_eq (by omega) (by omega)]
  have : decide (((m : Int) - (k : Int)) > 0) = true := decide_eq_true (by omega)
  rw [this, cassert_true, Res.bind_ok]
  have h2 : (((m : Int) - (k : Int)) - 1).toNat = m - (k + 1) := by omega
  rw [h2]
  exact vat_map (by omega)

theorem errAfter_final {boot m : Nat} (hb : 0 < boot)
    (hbud : δ.br + min boot m * δ.cmux + δ.ks + δ.ms < 2 ^ 30) {k : Nat} (hk : k ≤ m) :
    Backstream.errAfter δ boot k ≤ 2 ^ 30 - 1 := by
  unfold Backstream.errAfter
  have h1 := Nat.mod_lt k hb
  have h2 := Nat.mod_le k boot
  have : k % boot * δ.cmux ≤ min boot m * δ.cmux := Nat.mul_le_mul_right _ (by omega)
  omega

/-- **C28.** Feed the OFFLINE runner, built for input size `|w|`, the encrypted bits of `w` from the last to the first.  No step
fails and `result()` decrypts to whether the graph accepts `w`, whenever the worst-case error between two bootstrappings
stays within the margin and the number of bits fits in an `int`. -/
theorem C28_offline_decides (hS : S.Sound δ Enc) (hN : 0 < N) (g : Graph) (hg : g.WF) (boot : Nat) (hb : 0 < boot)
    (w : List Bool) (cs : List (Gsw l N)) (hcs : List.Forall₂ Enc cs w.reverse)
    (hbud : δ.br + min boot w.length * δ.cmux + δ.ks + δ.ms < 2 ^ 30) (h31 : w.length < 2 ^ 31) :
    ∃ r r' c, offlineMake g w.length boot true false = .ok r ∧ r.evalAll S cs = .ok r' ∧ r'.result = .ok c ∧
      g.accepts w = .ok (decryptBit c S.sk) := by
  obtain ⟨r, h1, h2, h3, h4, h5, h6, h7, h8⟩ := Backstream.make_ok (n := n) (l := l) hg hN boot (some w.length)
  have hnx : r.graph.nx = g.nx := by rw [h2]; rfl
  have hfin : r.graph.fin = g.fin := by rw [h2]; rfl
  have hsz : r.graph.size = g.size := by rw [h2]; rfl
  have hin : r.graph.init = g.init := by rw [h2]
  obtain ⟨r', k1, k2, _, _, _, _, _, k8⟩ := Backstream.evalAll_inv hS hN (by rw [h5]; exact hb) h6 (by rw [h3, hsz]) h7
    (offDom g w.length) w.length
    (by intro k hk; rw [h2, h4]; exact offStates _ _ hk h31)
    (fun k => (Graph.sorted_levelSet (by simp) _).nodup)
    (fun k q hq => by rw [hsz]; exact Graph.levelSet_lt (init_lt_all hg) _ q hq)
    (by
      intro k hk q hq b
      rw [hnx]
      have : w.length - k = (w.length - (k + 1)) + 1 := by omega
      unfold offDom
      rw [this, Graph.levelSet, hg.mem_nextSet (Graph.levelSet_lt (init_lt_all hg) _)]
      exact ⟨q, hq, b, rfl⟩)
    (by
      intro q hq
      rw [hfin]
      exact h8 q (Graph.levelSet_lt (init_lt_all hg) _ q hq) S)
    (by rw [h5]; exact hbud) cs w.reverse hcs (by simp)
  have hq : r'.graph.init ∈ offDom g w.length w.reverse.length := by
    rw [k2, hin]
    unfold offDom
    simp [Graph.levelSet]
  have hres := k8 _ hq
  rw [List.reverse_reverse, hfin, hnx, k2, hin] at hres
  rw [h5] at hres
  obtain ⟨c, hc1, hc2⟩ := Backstream.result_ok hN (r := r') (by rw [k2, hin]; exact hres)
  refine ⟨r, r', c, h1, k1, hc1, ?_⟩
  rw [hg.accepts_eq]
  rw [C24_decrypts _ c S.sk (hc2.mono (errAfter_final hb hbud (by simp)))]
  rfl

/-- the states updated by the OFFLINE runner of size `m` after `k` inputs, for any size -/
def offDomAny (g : Graph) (m k : Nat) : List Nat := g.levelSet [g.init] (narrow ((m : Int) - ((k : Int) - 1)) - 1).toNat

theorem offStatesAny {g : Graph} (m k : Nat) (hk : k < m) (hp : 0 < narrow ((m : Int) - k)) :
    evalStates { g with statesAtDepth := (List.range m).map (g.levelSet [g.init]) } (some m) k = .ok (offDomAny g m (k + 1)) := by
  unfold evalStates offDomAny
  dsimp only
  have : decide (narrow ((m : Int) - (k : Int)) > 0) = true := decide_eq_true hp
  rw [this, cassert_true, Res.bind_ok]
  have e : (m : Int) - (((k + 1 : Nat) : Int) - 1) = (m : Int) - k := by omega
  rw [e]
  refine vat_map ?_
  have := narrow_le (x := (m : Int) - k) (by omega)
  omega

/-- **C28 (too many inputs).** Whatever the ciphertexts are, feeding more than `input_size` of them fails an assertion; so does feeding all
of them if `input_size` is 2^31 or more, because the number of inputs still to come is held in an `int`. -/
theorem C28_offline_aborts (S : Scheme N n l) (hN : 0 < N) (g : Graph) (hg : g.WF) (boot : Nat) (hb : 0 < boot)
    (m : Nat) (cs : List (Gsw l N)) (hcs : m < cs.length ∨ 2 ^ 31 ≤ m ∧ m ≤ cs.length) :
    ∃ r, offlineMake g m boot true false = .ok r ∧ r.evalAll S cs = .error .assertFail := by
  obtain ⟨r, h1, h2, h3, h4, h5, h6, h7, h8⟩ := Backstream.make_ok (n := n) (l := l) hg hN boot (some m)
  have hsz : r.graph.size = g.size := by rw [h2]; rfl
  have hwf : r.graph.WF := by rw [h2]; exact hg.withDepth _
  refine ⟨r, h1, ?_⟩
  -- the first input at which `j` is not positive
  have hex : ∃ k, k < cs.length ∧ k ≤ m ∧ narrow ((m : Int) - k) ≤ 0 := by
    rcases hcs with h | ⟨h, h'⟩
    · exact ⟨m, h, Nat.le_refl _, by rw [Int.sub_self]; decide⟩
    · refine ⟨m - 2 ^ 31, by omega, by omega, ?_⟩
      have : (m : Int) - ((m - 2 ^ 31 : Nat) : Int) = 2 ^ 31 := by omega
      rw [this]
      decide
  obtain ⟨k, ⟨hk1, hk2, hk3⟩, hmin⟩ : ∃ k, (k < cs.length ∧ k ≤ m ∧ narrow ((m : Int) - k) ≤ 0) ∧
      ∀ k' < k, 0 < narrow ((m : Int) - k') := by
    classical
    refine ⟨Nat.find hex, Nat.find_spec hex, fun k' hk' => ?_⟩
    have h := Nat.find_min hex hk'
    have h' := Nat.find_spec hex
    by_contra hn
    exact h ⟨by omega, by omega, by omega⟩
  obtain ⟨r', k1, k2, k3, _, k5, _⟩ := Backstream.evalAll_struct (S := S) hN hwf (by rw [h5]; exact hb) h6 (by rw [h3, hsz]) h7
    (offDomAny g m) k
    (by intro i hi; rw [h2, h4]; exact offStatesAny _ _ (by omega) (hmin i hi))
    (fun k => (Graph.sorted_levelSet (by simp) _).nodup)
    (fun k q hq => by rw [hsz]; exact Graph.levelSet_lt (init_lt_all hg) _ q hq) (cs.take k) (by simp)
  rw [← List.take_append_drop k cs, Backstream.evalAll_append, k1]
  obtain ⟨c, cs', hd⟩ : ∃ c cs', cs.drop k = c :: cs' := by
    cases hdd : cs.drop k with
    | nil => have := congrArg List.length hdd; simp at this; omega
    | cons c cs' => exact ⟨c, cs', rfl⟩
  rw [hd]
  show (r'.eval S c >>= fun r => cs'.foldlM (fun (r : Backstream N) c => r.eval S c) r) = _
  have : r'.eval S c = .error .assertFail := by
    unfold Backstream.eval
    dsimp only
    have he : evalStates r'.graph r'.inputSize r'.numProcessed = .error .assertFail := by
      rw [k3, h4, k5, List.length_take_of_le (Nat.le_of_lt hk1)]
      unfold evalStates
      dsimp only
      have : decide (narrow ((m : Int) - (k : Int)) > 0) = false := decide_eq_false (by omega)
      rw [this]; rfl
    rw [he]; rfl
  rw [this]; rfl

/-- What the REVERSE runner holds after feeding it any encrypted word `u` (graph `g` already reversed). -/
theorem reverse_run (hS : S.Sound δ Enc) (hN : 0 < N) (g : Graph) (hg : g.WF) (boot : Nat) (hb : 0 < boot)
    (u : List Bool) (m : Nat) (hm : u.length ≤ m) (cs : List (Gsw l N)) (hcs : List.Forall₂ Enc cs u)
    (hbud : δ.br + min boot m * δ.cmux + δ.ks + δ.ms < 2 ^ 30) :
    ∃ r r' c, Backstream.make g boot none true false = .ok r ∧ r.evalAll S cs = .ok r' ∧ r'.result = .ok c ∧
      g.accepts u.reverse = .ok (decryptBit c S.sk) := by
  obtain ⟨r, h1, h2, h3, h4, h5, h6, h7, h8⟩ := Backstream.make_ok (n := n) (l := l) hg hN boot none
  have h2 : r.graph = g := h2
  obtain ⟨r', k1, k2, _, _, _, _, _, k8⟩ := Backstream.evalAll_inv hS hN (by rw [h5]; exact hb) h6
    (by rw [h3, h2]) h7 (fun _ => List.range g.size) m
    (by intro k hk; rw [h2, h4]; rfl)
    (fun k => List.nodup_range)
    (fun k q hq => by rw [h2]; exact List.mem_range.1 hq)
    (by
      intro k hk q hq b
      rw [h2]
      exact List.mem_range.2 (hg.nx_lt (List.mem_range.1 hq) b))
    (by
      intro q hq
      rw [h2]
      exact h8 q (List.mem_range.1 hq) S)
    (by rw [h5]; exact hbud) cs u hcs hm
  have hres := k8 r'.graph.init (by rw [k2, h2]; exact List.mem_range.2 hg.init_lt)
  obtain ⟨c, hc1, hc2⟩ := Backstream.result_ok hN (r := r') hres
  refine ⟨r, r', c, h1, k1, hc1, ?_⟩
  rw [k2, h2] at hc2
  rw [hg.accepts_eq, C24_decrypts _ c S.sk (hc2.mono (by rw [h5]; exact errAfter_final hb hbud hm))]
  rfl

theorem forall₂_take {α β : Type} {P : α → β → Prop} {xs : List α} {ys : List β} (h : List.Forall₂ P xs ys) (k : Nat) :
    List.Forall₂ P (xs.take k) (ys.take k) := by
  induction h generalizing k with
  | nil => simp
  | cons h1 _ ih =>
    cases k with
    | zero => simp
    | succ k => exact .cons h1 (ih k)

/-- **C29.** REVERSE runner, spec given in the ordinary direction: construction succeeds, and after every prefix (`k` inputs) of
the encrypted word `result()` decrypts to whether the graph accepts that prefix. -/
theorem C29_reverse_decides (hS : S.Sound δ Enc) (hN : 0 < N) (g : Graph) (hg : g.WF) (boot : Nat) (hb : 0 < boot)
    (w : List Bool) (cs : List (Gsw l N)) (hcs : List.Forall₂ Enc cs w)
    (hbud : δ.br + min boot w.length * δ.cmux + δ.ks + δ.ms < 2 ^ 30) :
    ∃ r, reverseMake g boot false true false = .ok r ∧ ∀ k ≤ w.length,
      ∃ r' c, r.evalAll S (cs.take k) = .ok r' ∧ r'.result = .ok c ∧
        g.accepts (w.take k) = .ok (decryptBit c S.sk) := by
  obtain ⟨g1, a1, a2, a3⟩ := C03_reversed_language g hg
  obtain ⟨g2, b1, b2, b3⟩ := C04_minimized_language g1 a2
  obtain ⟨r, h1, _⟩ := Backstream.make_ok (n := n) (l := l) b2 hN boot none
  refine ⟨r, ?_, ?_⟩
  · unfold reverseMake
    simp only [Bool.false_eq_true, if_false]
    rw [a1, Res.bind_ok, b1, Res.bind_ok, h1]
  · intro k hk
    obtain ⟨r0, r', c, k1, k2, k3, k4⟩ := reverse_run hS hN g2 b2 boot hb (w.take k) w.length
      (by rw [List.length_take]; omega) (cs.take k) (forall₂_take hcs k) hbud
    have k1 : Backstream.make g2 boot none true false = .ok r0 := k1
    rw [h1] at k1
    injection k1 with k1
    subst k1
    refine ⟨r', c, k2, k3, ?_⟩
    rw [← k4, b3, a3, List.reverse_reverse]

/-- **C29 (spec already reversed).** With `is_spec_reversed` the graph is used as it is: after `k` inputs the result is whether the
given graph accepts the reversed prefix. -/
theorem C29_reverse_spec_reversed (hS : S.Sound δ Enc) (hN : 0 < N) (g : Graph) (hg : g.WF) (boot : Nat) (hb : 0 < boot)
    (w : List Bool) (cs : List (Gsw l N)) (hcs : List.Forall₂ Enc cs w)
    (hbud : δ.br + min boot w.length * δ.cmux + δ.ks + δ.ms < 2 ^ 30) :
    ∃ r, reverseMake g boot true true false = .ok r ∧ ∀ k ≤ w.length,
      ∃ r' c, r.evalAll S (cs.take k) = .ok r' ∧ r'.result = .ok c ∧
        g.accepts (w.take k).reverse = .ok (decryptBit c S.sk) := by
  obtain ⟨r, h1, _⟩ := Backstream.make_ok (n := n) (l := l) hg hN boot none
  refine ⟨r, h1, ?_⟩
  intro k hk
  obtain ⟨r0, r', c, k1, k2, k3, k4⟩ := reverse_run hS hN g hg boot hb (w.take k) w.length
    (by rw [List.length_take]; omega) (cs.take k) (forall₂_take hcs k) hbud
  rw [h1] at k1
  injection k1 with k1
  subst k1
  exact ⟨r', c, k2, k3, k4⟩

/-- **C48 (OFFLINE).** The CMUX count recorded over a complete run on any `m` ciphertexts is the sum of the sizes of the state sets
at depths `0 .. m-1` — the number logged by `do_run_offline`. -/
theorem C48_offline_cmux (S : Scheme N n l) (hN : 0 < N) (g : Graph) (hg : g.WF) (boot : Nat) (hb : 0 < boot)
    (cs : List (Gsw l N)) (h31 : cs.length < 2 ^ 31) :
    ∃ r r', offlineMake g cs.length boot true false = .ok r ∧ r.evalAll S cs = .ok r' ∧
      ∃ sizes : List Nat, (List.range cs.length).mapM (fun j => do
          let sts ← r.graph.statesAtDepthAt j
          pure sts.length) = Except.ok sizes ∧
        Backstream.cmuxCount r'.timer = sizes.sum := by
  obtain ⟨r, h1, h2, h3, h4, h5, h6, h7, h8⟩ := Backstream.make_ok (n := n) (l := l) hg hN boot (some cs.length)
  have hsz : r.graph.size = g.size := by rw [h2]; rfl
  have hwf : r.graph.WF := by rw [h2]; exact hg.withDepth _
  obtain ⟨r', k1, _, _, _, _, _, k7⟩ := Backstream.evalAll_struct (S := S) hN hwf (by rw [h5]; exact hb) h6 (by rw [h3, hsz]) h7
    (offDom g cs.length) cs.length
    (by intro k hk; rw [h2, h4]; exact offStates _ _ hk h31)
    (fun k => (Graph.sorted_levelSet (by simp) _).nodup)
    (fun k q hq => by rw [hsz]; exact Graph.levelSet_lt (init_lt_all hg) _ q hq) cs (Nat.le_refl _)
  refine ⟨r, r', h1, k1, (List.range cs.length).map (fun j => (g.levelSet [g.init] j).length), ?_, ?_⟩
  · apply mapM_ok
    intro j hj
    rw [h2]
    show (do let sts ← vat ((List.range cs.length).map (g.levelSet [g.init])) j; pure sts.length) = _
    rw [vat_map (List.mem_range.1 hj)]
    rfl
  · rw [k7]
    have : (List.range cs.length).map (fun k => (offDom g cs.length (k + 1)).length) =
        ((List.range cs.length).map (fun j => (g.levelSet [g.init] j).length)).reverse := by
      apply List.ext_getElem
      · simp
      · intro i hi1 hi2
        simp only [List.getElem_map, List.getElem_range, List.getElem_reverse, offDom, List.length_map, List.length_range]
        congr 2
        omega
    rw [this, List.sum_reverse]

/-- **C48 (REVERSE).** The REVERSE runner records exactly one CMUX per state of its (reversed) graph and input. -/
theorem C48_reverse_cmux (S : Scheme N n l) (hN : 0 < N) (g : Graph) (hg : g.WF) (boot : Nat) (hb : 0 < boot) (isRev : Bool)
    (cs : List (Gsw l N)) :
    ∃ r r', reverseMake g boot isRev true false = .ok r ∧ r.evalAll S cs = .ok r' ∧
      Backstream.cmuxCount r'.timer = cs.length * r.graph.size := by
  have key : ∀ g' : Graph, g'.WF → ∃ r r', Backstream.make g' boot none true false = .ok r ∧ r.evalAll S cs = .ok r' ∧
      Backstream.cmuxCount r'.timer = cs.length * r.graph.size := by
    intro g' hg'
    obtain ⟨r, h1, h2, h3, h4, h5, h6, h7, h8⟩ := Backstream.make_ok (n := n) (l := l) hg' hN boot none
    have h2 : r.graph = g' := h2
    obtain ⟨r', k1, _, _, _, _, _, k7⟩ := Backstream.evalAll_struct (S := S) hN (by rw [h2]; exact hg') (by rw [h5]; exact hb) h6
      (by rw [h3, h2]) h7 (fun _ => List.range g'.size) cs.length
      (by intro k hk; rw [h2, h4]; rfl)
      (fun k => List.nodup_range)
      (fun k q hq => by rw [h2]; exact List.mem_range.1 hq) cs (Nat.le_refl _)
    refine ⟨r, r', h1, k1, ?_⟩
    rw [k7, h2]
    simp
  unfold reverseMake
  cases isRev with
  | true => exact key g hg
  | false =>
    simp only [Bool.false_eq_true, if_false]
    obtain ⟨g1, a1, a2, a3⟩ := C03_reversed_language g hg
    obtain ⟨g2, b1, b2, b3⟩ := C04_minimized_language g1 a2
    rw [a1, Res.bind_ok, b1, Res.bind_ok]
    exact key g2 b2

/-- The hypotheses are met by a concrete backend, the example graph, a three-bit word and bootstrapping after every second
input; the runner then decides the word. -/
example : ∃ (S : Scheme 4 2 1) (δ : Noise) (Enc : Gsw 1 4 → Bool → Prop) (cs : List (Gsw 1 4)),
    S.Sound δ Enc ∧ exGraph.WF ∧ List.Forall₂ Enc cs [false, true, true].reverse ∧
    δ.br + min 2 3 * δ.cmux + δ.ks + δ.ms < 2 ^ 30 ∧
    ∃ r r' c, offlineMake exGraph 3 2 true false = .ok r ∧ r.evalAll S cs = .ok r' ∧ r'.result = .ok c ∧
      decryptBit c S.sk = true := by
  have hs := toy_sound (N := 4) (n := 2) (l := 1) ⟨![1, 0, 1, 0], ![1, 0]⟩ (by decide) (by decide)
  refine ⟨_, toyNoise, toyEnc, [true, true, false].map ((toyScheme 4 2 1 ⟨![1, 0, 1, 0], ![1, 0]⟩).encrypt 0), hs, exGraph_wf, ?_, by decide, ?_⟩
  · exact .cons (hs.encrypt _ _) (.cons (hs.encrypt _ _) (.cons (hs.encrypt _ _) .nil))
  · obtain ⟨r, r', c, h1, h2, h3, h4⟩ := C28_offline_decides hs (by decide) exGraph exGraph_wf 2 (by decide)
      [false, true, true] ([true, true, false].map ((toyScheme 4 2 1 ⟨![1, 0, 1, 0], ![1, 0]⟩).encrypt 0))
      (.cons (hs.encrypt _ _) (.cons (hs.encrypt _ _) (.cons (hs.encrypt _ _) .nil))) (by decide) (by decide)
    refine ⟨r, r', c, h1, h2, h3, ?_⟩
    have h5 : exGraph.accepts [false, true, true] = .ok true := by decide
    rw [h5] at h4
    exact (Except.ok.inj h4).symm

end Homfa
