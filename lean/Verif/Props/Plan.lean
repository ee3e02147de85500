import Verif.Proof.Plan
import Verif.Props.Count
import Verif.Props.Chance

/-!
# C79: the calls of a run, one by one

The list of the library functions that a whole run calls, in order, from the numbers of states that are live at each position (`Spec/Plan.lean`);
and with it C78 with the chance as a number.
-/

namespace Homfa

open Homfa.Comp

variable {N n l : Nat}

/-- **C79**, `run offline`: the ciphertexts come from last to first, so the i-th one handled is at position `len - 1 - i`. -/
theorem C79_offline (S : Scheme N n l) (spec : List Char) (g : Graph) (hg : Graph.fromIstream spec = .ok g) (hs : 0 < g.size)
    (cs : List (Gsw l N)) (boot : Nat) (c : TLWE N) (h : doRunOffline S spec cs.length cs boot false = .ok c) :
    ∃ m D, g.minimized = .ok m ∧ Levels m [m.initialState] D ∧
      (doRunOfflineC spec cs.length cs boot false : Comp N n l (TLWE N)).kinds S =
        streamCalls boot (fun i => (D (cs.length - 1 - i)).length) cs.length := by
  obtain ⟨m, hm, wf, -⟩ := Graph.minimized_good (wf_of_fromIstream hg hs)
  obtain ⟨r, h1, h2, -, h4, h5, h6, -⟩ := Backstream.make_weight (N := N) wf boot (some cs.length)
  have hD : ∀ j, r.graph.statesAtDepthAt j = if j < cs.length then .ok (m.levelSet [m.init] j) else vat ([] : List (List Nat)) 0 := by
    intro j
    rw [h2]
    unfold Graph.statesAtDepthAt
    by_cases hj : j < cs.length
    · rw [if_pos hj]; simp [vat, hj]
    · rw [if_neg hj]; simp [vat, hj]
  refine ⟨m, m.levelSet [m.init], hm, levels_levelSet wf (by simp) (by rintro q (_ | ⟨_, ⟨⟩⟩); exact wf.init_lt), ?_⟩
  rw [← doRunOfflineC_run] at h
  unfold doRunOfflineC at h ⊢
  obtain ⟨_, e0, h, e⟩ := Comp.ret_inv h; rw [e]; clear e
  cases hg.symm.trans e0
  obtain ⟨_, e0, h, e⟩ := Comp.ret_inv h; rw [e]; clear e
  cases hm.symm.trans e0
  obtain ⟨_, e0, h, e⟩ := Comp.ret_inv h; rw [e]; clear e
  cases h1.symm.trans e0
  obtain ⟨_, e0, h, e⟩ := Comp.ret_inv h; rw [e]; clear e
  obtain ⟨r', h7, h, e⟩ := Comp.bind_inv h; rw [e]; clear e
  have h31 := offline_small h6 h4 h7
  rw [show ∀ x : Res (TLWE N), (.ret x : Comp N n l _).kinds S = [] from fun _ => rfl, List.append_nil,
    backstream_plan (sz := fun np => (m.levelSet [m.init] (cs.length - 1 - np)).length) (M := cs.length) ?_ cs r r' (by rw [h6]; omega) rfl h4 h5 h7, h6]
  · simp only [Nat.zero_add]
    rfl
  · intro np sts hnp he
    unfold evalStates at he
    dsimp only at he
    obtain ⟨_, hc, he⟩ := Res.bind_eq_ok.1 he
    rw [hD] at he
    unfold cassert at hc
    split at hc
    · next =>
      rw [narrow_eq (by omega) (by omega)] at he
      rw [if_pos (by omega)] at he
      cases he
      rw [show ((cs.length : Int) - np - 1).toNat = cs.length - 1 - np by omega]
    · cases hc

/-- **C79**, `run reverse`, whatever files are written: every state of the automaton that is walked is live all the time. -/
theorem C79_reverse (S : Scheme N n l) (spec : List Char) (g : Graph) (hg : Graph.fromIstream spec = .ok g)
    (size : Nat) (cs : List (Gsw l N)) (outFile outDir : Option String) (outFreq boot : Nat) (isRev : Bool) (files : List (OutFile × TLWE N))
    (h : doRunReverse S spec size cs outFile outDir outFreq boot isRev false = .ok files) :
    ∃ m, (if isRev then .ok g else g.reversed >>= Graph.minimized) = .ok m ∧
      (doRunReverseC spec size cs outFile outDir outFreq boot isRev false : Comp N n l _).kinds S =
        streamCalls boot (fun _ => m.size) cs.length := by
  rw [← doRunReverseC_run] at h
  unfold doRunReverseC at h ⊢
  obtain ⟨_, _, h, e⟩ := Comp.ret_inv h; rw [e]; clear e
  obtain ⟨_, e0, h, e⟩ := Comp.ret_inv h; rw [e]; clear e
  cases hg.symm.trans e0
  obtain ⟨r, e0, h, e⟩ := Comp.ret_inv h; rw [e]; clear e
  obtain ⟨p, h5, h, e⟩ := Comp.bind_inv h; rw [e]; clear e
  obtain ⟨_, _, h, e⟩ := Comp.ret_inv h; rw [e]; clear e
  obtain ⟨_, _, h, e⟩ := Comp.ret_inv h; rw [e]; clear e
  unfold reverseMake at e0
  obtain ⟨m, hm, e0⟩ := Res.bind_eq_ok.1 e0
  obtain ⟨h6, h7⟩ := onlineLoopC_reverse_calls _ _ _ _ _ _ h5
  refine ⟨m, hm, ?_⟩
  have hr : r.graph = m ∧ r.inputSize = none ∧ r.bootInterval = boot ∧ r.numProcessed = 0 := by
    unfold Backstream.make at e0
    obtain ⟨_, _, e0⟩ := Res.bind_eq_ok.1 e0
    simp only [Bool.false_eq_true, if_false] at e0
    obtain ⟨g', hg', e0⟩ := Res.bind_eq_ok.1 e0
    obtain ⟨_, _, e0⟩ := Res.bind_eq_ok.1 e0
    cases hg'
    cases e0
    exact ⟨rfl, rfl, rfl, rfl⟩
  rw [Comp.kinds_pure, List.append_nil, h7, backstream_plan (sz := fun _ => m.size) ?_ cs r _ (Nat.le_refl _) hr.1 hr.2.1 hr.2.2.1 h6, hr.2.2.2]
  · simp only [Nat.zero_add]
    rfl
  · intro np sts hnp he
    cases he
    simp [Graph.allStates]

/-- **C79**, `run block`.  A queue size of 0 acts as 1. -/
theorem C79_block (S : Scheme N n l) (spec : List Char) (g : Graph) (hg : Graph.fromIstream spec = .ok g) (hs : 0 < g.size)
    (cs : List (Gsw l N)) (qs : Nat) (hint : qs ≤ 2 ^ 31) (c : TLWE N) (h : doRunBlock S spec cs qs false = .ok c) :
    ∃ D, Levels g [g.initialState] D ∧
      (doRunBlockC spec cs qs false : Comp N n l (TLWE N)).kinds S =
        inBlocks (max 1 qs) cs.length fun _ s k => blockCalls (fun j => (D j).length) s k := by
  have wf := wf_of_fromIstream hg hs
  refine ⟨g.levelSet [g.init], levels_levelSet wf (by simp) (by rintro q (_ | ⟨_, ⟨⟩⟩); exact wf.init_lt), ?_⟩
  rw [← doRunBlockC_run] at h
  unfold doRunBlockC at h ⊢
  obtain ⟨_, e0, h, e⟩ := Comp.ret_inv h; rw [e]; clear e
  cases hg.symm.trans e0
  obtain ⟨r, e0, h, e⟩ := Comp.ret_inv h; rw [e]; clear e
  obtain ⟨r', h1, h, e⟩ := Comp.bind_inv h; rw [e]; clear e
  obtain ⟨x, h2, h, e⟩ := Comp.bind_inv h; rw [e]; clear e
  rw [kinds_pure, List.append_nil]
  cases e0
  rw [queue_plan (I := BlockAt g (max 1 qs) qs) (q := max 1 qs)
    (plan := fun b k => blockCalls (fun j => (g.levelSet [g.init] j).length) (b * max 1 qs) k)
    (fun b k r c r' => block_step wf rfl hint b k r c r') (fun b k r x hI hk => block_last wf (by omega) b k r x hI hk) cs 0 0 _ _ _
    ⟨rfl, rfl, rfl, by rw [Nat.zero_mul]; rfl⟩ (by omega) h1 h2]
  simp only [Nat.zero_add]
  rfl

/-- **C79**, `run flut` with an output file. -/
theorem C79_flut (S : Scheme N n l) (spec : List Char) (g : Graph) (hg : Graph.fromIstream spec = .ok g) (hs : 0 < g.size)
    (size : Nat) (cs : List (Gsw l N)) (outName : String) (outFreq qs boot : Nat) (hqs0 : 0 < qs) (hqs : qs < 31) (maxSecond : Option Nat)
    (files : List (OutFile × TLWE N))
    (h : doRunFlut S spec size cs (some outName) none outFreq qs boot maxSecond false = .ok files) :
    ∃ D, Levels g [g.initialState] D ∧
      (doRunFlutC spec size cs (some outName) none outFreq qs boot maxSecond false : Comp N n l _).kinds S =
        inBlocks qs cs.length fun b s k => flutCalls (fun j => (D j).length) (maxSecond.getD 8) boot b s k := by
  have wf := wf_of_fromIstream hg hs
  refine ⟨g.levelSet [g.init], levels_levelSet wf (by simp) (by rintro q (_ | ⟨_, ⟨⟩⟩); exact wf.init_lt), ?_⟩
  rw [← doRunFlutC_run] at h
  unfold doRunFlutC at h ⊢
  obtain ⟨_, e0, h, e⟩ := Comp.ret_inv h; rw [e]; clear e
  cases hg.symm.trans e0
  obtain ⟨r, e0, h, e⟩ := Comp.ret_inv h; rw [e]; clear e
  rw [if_neg (by simp)] at h ⊢
  obtain ⟨p, h1, h, e⟩ := Comp.bind_inv h; rw [e]; clear e
  obtain ⟨_, _, h, e⟩ := Comp.ret_inv h; rw [e]; clear e
  obtain ⟨x, h2, h, e⟩ := Comp.bind_inv h; rw [e]; clear e
  obtain ⟨k1, k2⟩ := onlineLoopC_none _ _ _ _ _ _ _ h1
  rw [kinds_pure, List.append_nil, k2]
  obtain ⟨r0, f1, f2, f3, f4, f5, f6, f7, f8, _, f9, _⟩ := flut_make (N := N) (l := l) wf (maxSecond.getD 8) qs boot hqs
  cases f1.symm.trans e0
  rw [queue_plan (I := FlutAt g qs (maxSecond.getD 8) boot) (q := qs)
    (plan := fun b k => flutCalls (fun j => (g.levelSet [g.init] j).length) (maxSecond.getD 8) boot b (b * qs) k)
    (fun b k r c r' => flut_step wf hqs b k r c r') (fun b k r x => flut_last wf hqs b k r x) cs 0 0 _ _ _
    ⟨f2, f3, f4, f5, f9, by rw [f6]; rfl, by rw [f7, Nat.zero_mul]; rfl, f8⟩ hqs0 k1 h2]
  simp only [Nat.zero_add]
  rfl

/-! ## The chance of a wrong verdict as a number -/

open MeasureTheory
open scoped ENNReal

variable {Ω : Type} [MeasurableSpace Ω] (μ : Measure Ω) {S : Ω → Scheme N n l} {Enc : Ω → Gsw l N → Bool → Prop}
  {rand : Ω → Nat → Nat} {δ : Noise} {εe : ℝ≥0∞} {ε : CallKind → ℝ≥0∞}

/-- **C79** (OFFLINE): C78 with the calls listed. -/
theorem C79_offline_chance (hE : ∀ ω, SensibleEnc (Enc ω)) (hN : 0 < N) (hl : 0 < l) (hbs : blockSize l N < 2 ^ 63) (spec : List Char) (g : Graph)
    (hg : Graph.fromIstream spec = .ok g) (ap : Nat)
    (hap : 0 < ap) (rs : List (List Byte)) (hrs : ∀ r ∈ rs, r.length = recordBytes ap) (w : List Bool) (hw : w = rs.flatMap (recordBits ap))
    (hsize : w.length * blockSize l N < 2 ^ 63) (h31 : w.length < 2 ^ 31) (boot : Nat) (hb : 0 < boot) (hbud : δ.br + boot * δ.cmux + δ.ks + δ.ms < 2 ^ 30)
    (out : List Char) (hplain : doRunPlain spec (some rs.flatten) ap = .ok out)
    (hrate : FailureRates μ S Enc rand δ w (fun cs => doRunOfflineC spec w.length cs.reverse boot false) εe ε) :
    ∃ m D, g.minimized = .ok m ∧ Levels m [m.initialState] D ∧
      μ {ω | ¬ OfflinePrints (S ω) (rand ω) spec rs.flatten ap boot out} ≤
        w.length * εe + ((streamCalls boot (fun i => (D (w.length - 1 - i)).length) w.length).map ε).sum := by
  obtain ⟨K, hK, hm⟩ := C78_offline μ hE hN hl hbs spec ap hap rs hrs w hw hsize h31 boot hb hbud out hplain hrate
  obtain ⟨T, hT⟩ := exact_scheme N n l hN hl
  obtain ⟨file, e1, e2⟩ := C36_offline hT hN hl hbs (fun m => m) spec _ ap hap boot hb (by simp) out hplain
  obtain ⟨g', _, _, p1, p2, _⟩ := plain_ok hap hplain
  cases hg.symm.trans p1
  obtain ⟨f1, f2⟩ := enc_file _ _ hap hrs e1
  obtain ⟨⟨size, cs, e3⟩, e4⟩ := e2 (by rw [f2, ← hw]; exact hsize)
  have hr := e3 0
  obtain ⟨c, e5, -⟩ := e4 (by rw [f2, ← hw]; exact Nat.mul_lt_mul_of_pos_right h31 (blockSize_pos hl hN)) _ _ hr
  rw [f1] at hr
  obtain ⟨rfl, h3, h4⟩ := readsReversed_eq (blockSize_pos hl hN) hbs (by rw [← f1, f2, ← hw]; exact hsize) hr
  have hlen : (ctxts T (fun m => m) (rs.flatMap (recordBits ap))).reverse.length = w.length := by rw [hw]; simp [ctxts]
  have h5 : size = w.length := by
    have := h4 size (by simp)
    rw [this, ← hlen, List.length_reverse]
  subst h5
  rw [← hlen] at e5
  obtain ⟨m, D, m1, m2, m3⟩ := C79_offline T spec g hg (Nat.zero_lt_of_lt p2.init_lt) _ boot c e5
  refine ⟨m, D, m1, m2, ?_⟩
  rw [hlen] at m3
  rw [← m3, hK T (ctxts T (fun m => m) (rs.flatMap (recordBits ap))) (by simpa using hlen)]
  exact hm

/-- **C79** (REVERSE): C78 with the calls listed. -/
theorem C79_reverse_chance (hE : ∀ ω, SensibleEnc (Enc ω)) (hN : 0 < N) (hl : 0 < l) (hbs : blockSize l N < 2 ^ 63) (spec : List Char) (g : Graph)
    (hg : Graph.fromIstream spec = .ok g) (ap : Nat)
    (hap : 0 < ap) (rs : List (List Byte)) (hrs : ∀ r ∈ rs, r.length = recordBytes ap) (w : List Bool) (hw : w = rs.flatMap (recordBits ap))
    (hsize : w.length * blockSize l N < 2 ^ 63) (boot : Nat) (hb : 0 < boot) (hbud : δ.br + boot * δ.cmux + δ.ks + δ.ms < 2 ^ 30)
    (out : List Char) (hplain : doRunPlain spec (some rs.flatten) ap = .ok out) (outName : String)
    (hrate : FailureRates μ S Enc rand δ w (fun cs => doRunReverseC spec w.length cs (some outName) none 1 boot false false) εe ε) :
    ∃ m, g.reversed >>= Graph.minimized = .ok m ∧
      μ {ω | ¬ ReversePrints (S ω) (rand ω) spec rs.flatten ap outName boot out} ≤
        w.length * εe + ((streamCalls boot (fun _ => m.size) w.length).map ε).sum := by
  obtain ⟨K, hK, hm⟩ := C78_reverse μ hE hN hl hbs spec ap hap rs hrs w hw hsize boot hb hbud out hplain outName hrate
  obtain ⟨T, hT⟩ := exact_scheme N n l hN hl
  obtain ⟨file, e1, e2⟩ := C37_reverse hT hN hl hbs (fun m => m) spec _ ap hap boot hb (by simp) out hplain outName 1 false
  obtain ⟨f1, f2⟩ := enc_file _ _ hap hrs e1
  obtain ⟨⟨size, cs, e3⟩, e4⟩ := e2 (by rw [f2, ← hw]; exact hsize)
  have hr := e3 1
  obtain ⟨c, e5, -⟩ := e4 _ _ hr
  rw [f1] at hr
  obtain ⟨rfl, h4⟩ := readsForward_eq (blockSize_pos hl hN) hbs (by rw [← f1, f2, ← hw]; exact hsize) hr
  have hlen : (ctxts T (fun m => m) (rs.flatMap (recordBits ap))).length = w.length := by rw [hw]; simp [ctxts]
  rw [last_size (by simp) h4, hlen] at e5
  obtain ⟨m, m1, m2⟩ := C79_reverse T spec g hg _ _ _ _ _ _ _ _ e5
  refine ⟨m, m1, ?_⟩
  rw [hlen] at m2
  rw [← m2, hK T _ hlen]
  exact hm

/-- **C79** (BLOCK): C78 with the calls listed. -/
theorem C79_block_chance (hE : ∀ ω, SensibleEnc (Enc ω)) (hN : 0 < N) (hl : 0 < l) (hbs : blockSize l N < 2 ^ 63) (spec : List Char) (g : Graph)
    (hg : Graph.fromIstream spec = .ok g) (ap : Nat)
    (hap : 0 < ap) (rs : List (List Byte)) (hrs : ∀ r ∈ rs, r.length = recordBytes ap) (hne : rs ≠ []) (w : List Bool)
    (hw : w = rs.flatMap (recordBits ap)) (hsize : w.length * blockSize l N < 2 ^ 63) (qs B : Nat)
    (hB : LiveBits g B) (hBN : B < N) (hB31 : B < 31)
    (hbud : (max 1 qs + B) * δ.cmux + δ.cb < 2 ^ 29) (hint : qs ≤ 2 ^ 31) (out : List Char) (hplain : doRunPlain spec (some rs.flatten) ap = .ok out)
    (hrate : FailureRates μ S Enc rand δ w (fun cs => doRunBlockC spec cs qs false) εe ε) :
    ∃ D, Levels g [g.initialState] D ∧
      μ {ω | ¬ BlockPrints (S ω) (rand ω) spec rs.flatten ap qs out} ≤
        w.length * εe + ((inBlocks (max 1 qs) w.length fun _ s k => blockCalls (fun j => (D j).length) s k).map ε).sum := by
  have hB' : ∀ g, Graph.fromIstream spec = .ok g → LiveBits g B := by intro g' h'; cases hg.symm.trans h'; exact hB
  obtain ⟨K, hK, hm⟩ := C78_block μ hE hN hl hbs spec ap hap rs hrs hne w hw hsize qs B hB' hBN hB31 hbud hint out hplain hrate
  obtain ⟨T, hT⟩ := exact_scheme N n l hN hl
  obtain ⟨file, e1, e2⟩ := C38_block hT hN hl hbs (fun m => m) spec _ ap hap qs B hB' hBN hB31 (by simp) hint out hplain
  obtain ⟨g', _, _, p1, p2, _⟩ := plain_ok hap hplain
  cases hg.symm.trans p1
  obtain ⟨f1, f2⟩ := enc_file _ _ hap hrs e1
  obtain ⟨⟨size, cs, e3⟩, e4⟩ := e2 (by rw [f2, ← hw]; exact hsize)
  have hr := e3 1
  obtain ⟨c, e5, -⟩ := (e4 _ _ hr).1 (by
    cases rs with
    | nil => exact absurd rfl hne
    | cons r rs =>
      have := hrs r (by simp)
      intro h0
      rw [Option.some.injEq, List.flatten_cons, List.append_eq_nil_iff] at h0
      rw [h0.1] at this
      unfold recordBytes at this
      simp at this
      omega)
  rw [f1] at hr
  obtain ⟨rfl, h4⟩ := readsForward_eq (blockSize_pos hl hN) hbs (by rw [← f1, f2, ← hw]; exact hsize) hr
  have hlen : (ctxts T (fun m => m) (rs.flatMap (recordBits ap))).length = w.length := by rw [hw]; simp [ctxts]
  obtain ⟨D, m1, m2⟩ := C79_block T spec g hg (Nat.zero_lt_of_lt p2.init_lt) _ _ hint _ e5
  refine ⟨D, m1, ?_⟩
  rw [hlen] at m2
  rw [← m2, hK T _ hlen]
  exact hm

/-- **C79** (FLUT): C78 with the calls listed. -/
theorem C79_flut_chance (hE : ∀ ω, SensibleEnc (Enc ω)) (hN : 0 < N) (hl : 0 < l) (hbs : blockSize l N < 2 ^ 63) (spec : List Char) (g : Graph)
    (hg : Graph.fromIstream spec = .ok g) (ap : Nat)
    (hap : 0 < ap) (rs : List (List Byte)) (hrs : ∀ r ∈ rs, r.length = recordBytes ap) (w : List Bool) (hw : w = rs.flatMap (recordBits ap))
    (hsize : w.length * blockSize l N < 2 ^ 63) (maxSecond : Option Nat) (qs boot L : Nat)
    (hL : LiveMax g L) (hLs : L < 2 ^ maxSecond.getD 8) (hqs0 : 0 < qs) (hqs : qs < 31)
    (hmax : maxSecond.getD 8 < 31) (hmaxN : 2 ^ maxSecond.getD 8 ≤ N) (hb : 0 < boot)
    (hbud : L * 2 ^ (qs / 2) * flutErr δ L qs (boot - 1) + qs * δ.cmux + δ.ks + δ.ms < 2 ^ 30)
    (out : List Char) (hplain : doRunPlain spec (some rs.flatten) ap = .ok out) (outName : String)
    (hrate : FailureRates μ S Enc rand δ w (fun cs => doRunFlutC spec w.length cs (some outName) none 1 qs boot maxSecond false) εe ε) :
    ∃ D, Levels g [g.initialState] D ∧
      μ {ω | ¬ FlutPrints (S ω) (rand ω) spec rs.flatten ap outName qs boot maxSecond out} ≤
        w.length * εe + ((inBlocks qs w.length fun b s k => flutCalls (fun j => (D j).length) (maxSecond.getD 8) boot b s k).map ε).sum := by
  have hL' : ∀ g, Graph.fromIstream spec = .ok g → LiveMax g L := by intro g' h'; cases hg.symm.trans h'; exact hL
  obtain ⟨K, hK, hm⟩ := C78_flut μ hE hN hl hbs spec ap hap rs hrs w hw hsize maxSecond qs boot L hL' hLs hqs0 hqs hmax hmaxN hb hbud out hplain
    outName hrate
  obtain ⟨T, hT⟩ := exact_scheme N n l hN hl
  have herr : ∀ j, flutErr ⟨0, 0, 0, 0, 0, 0⟩ L qs j = 0 := by
    intro j
    induction j with
    | zero => rfl
    | succ j ih => rw [flutErr, ih]; simp
  obtain ⟨file, e1, e2⟩ := C39_flut hT hN hl hbs (fun m => m) spec _ ap hap maxSecond qs boot L hL' hqs0 hqs hmax hmaxN hb (by rw [herr]; simp) out hplain
    outName 1
  obtain ⟨g', _, _, p1, p2, _⟩ := plain_ok hap hplain
  cases hg.symm.trans p1
  obtain ⟨f1, f2⟩ := enc_file _ _ hap hrs e1
  obtain ⟨⟨size, cs, e3⟩, e4⟩ := e2 (by rw [f2, ← hw]; exact hsize)
  have hr := e3 1
  obtain ⟨e5, e6⟩ := e4 _ _ hr
  obtain ⟨c, e5, -⟩ := e6.resolve_left (e5 hLs)
  rw [f1] at hr
  obtain ⟨rfl, h4⟩ := readsForward_eq (blockSize_pos hl hN) hbs (by rw [← f1, f2, ← hw]; exact hsize) hr
  have hlen : (ctxts T (fun m => m) (rs.flatMap (recordBits ap))).length = w.length := by rw [hw]; simp [ctxts]
  rw [last_size (by simp) h4, hlen] at e5
  obtain ⟨D, m1, m2⟩ := C79_flut T spec g hg (Nat.zero_lt_of_lt p2.init_lt) _ _ _ _ _ _ hqs0 hqs _ _ e5
  refine ⟨D, m1, ?_⟩
  rw [hlen] at m2
  rw [← m2, hK T _ hlen]
  exact hm

/-- The DFA of a parity on five ciphertexts: all four commands succeed, and with the numbers 1, 2, 2, ... of live states the lists are the calls made. -/
example : let S := toyScheme 4 2 1 ⟨fun _ => 0#32, fun _ => 0#32⟩
    let spec := ">0* 0 1\n1 1 0\n".toList
    let cs := [S.encrypt 0 true, S.encrypt 1 false, S.encrypt 2 true, S.encrypt 3 true, S.encrypt 4 false]
    let live := fun j => if j = 0 then 1 else 2
    (doRunOffline S spec 5 cs 2 false).toBool = true ∧
    (doRunOfflineC spec 5 cs 2 false : Comp 4 2 1 _).kinds S = streamCalls 2 (fun i => live (5 - 1 - i)) 5 ∧
    (doRunReverse S spec 5 cs (some "f") none 1 2 true false).toBool = true ∧
    (doRunReverseC spec 5 cs (some "f") none 1 2 true false : Comp 4 2 1 _).kinds S = streamCalls 2 (fun _ => 2) 5 ∧
    (doRunBlock S spec cs 2 false).toBool = true ∧
    (doRunBlockC spec cs 2 false : Comp 4 2 1 _).kinds S = inBlocks 2 5 (fun _ s k => blockCalls live s k) ∧
    (doRunFlut S spec 5 cs (some "f") none 1 2 2 (some 2) false).toBool = true ∧
    (doRunFlutC spec 5 cs (some "f") none 1 2 2 (some 2) false : Comp 4 2 1 _).kinds S =
      inBlocks 2 5 (fun b s k => flutCalls live 2 2 b s k) ∧
    inBlocks 2 5 (fun b s k => flutCalls live 2 2 b s k) =
      [.cmux, .cmux, .toTrlwe, .toTrlwe, .cmux, .cmux, .keySwitch, .blindRotate, .toTrlwe, .keySwitch, .blindRotate, .toTrlwe,
        .cmux, .toTrlwe, .toTrlwe] := by
  refine ⟨?_, ?_, ?_, ?_, ?_, ?_, ?_, ?_, ?_⟩ <;> decide +kernel

/-- The library of C78 that is broken for one key out of a hundred meets the hypotheses. -/
example : ∃ g, Graph.fromIstream exSpec = .ok g ∧
    (∃ m D, g.minimized = .ok m ∧ Levels m [m.initialState] D ∧
      coin {ω | ¬ OfflinePrints (coinScheme ω) (fun m => m) exSpec coinInput.flatten 1 2 ['1']} ≤
        (3 : ℕ) * (1 / 100) + ((streamCalls 2 (fun i => (D (3 - 1 - i)).length) 3).map coinRate).sum) ∧
    (∃ m, g.reversed >>= Graph.minimized = .ok m ∧
      coin {ω | ¬ ReversePrints (coinScheme ω) (fun m => m) exSpec coinInput.flatten 1 "o" 2 ['1']} ≤
        (3 : ℕ) * (1 / 100) + ((streamCalls 2 (fun _ => m.size) 3).map coinRate).sum) ∧
    (∃ D, Levels g [g.initialState] D ∧
      coin {ω | ¬ BlockPrints (coinScheme ω) (fun m => m) exSpec coinInput.flatten 1 2 ['1']} ≤
        (3 : ℕ) * (1 / 100) + ((inBlocks 2 3 fun _ s k => blockCalls (fun j => (D j).length) s k).map coinRate).sum) ∧
    (∃ D, Levels g [g.initialState] D ∧
      coin {ω | ¬ FlutPrints (coinScheme ω) (fun m => m) exSpec coinInput.flatten 1 "o" 2 1 (some 2) ['1']} ≤
        (3 : ℕ) * (1 / 100) + ((inBlocks 2 3 fun b s k => flutCalls (fun j => (D j).length) 2 1 b s k).map coinRate).sum) := by
  have hp : doRunPlain exSpec (some coinInput.flatten) 1 = .ok ['1'] := by decide +kernel
  obtain ⟨g, _, _, h, h2, _⟩ := plain_ok (by omega) hp
  have hs : g.size = 2 := by
    have : (Graph.fromIstream exSpec).map Graph.size = .ok 2 := by decide +kernel
    rw [h] at this
    exact Except.ok.inj this
  refine ⟨g, h, ?_, ?_, ?_, ?_⟩
  · exact C79_offline_chance (n := 2) coin (fun _ => toyEnc_sensible) (by decide) (by decide) (by decide) exSpec _ h 1 (by decide) coinInput
      (by decide) _ rfl (by decide) (by decide) 2 (by decide) (by decide) _ hp (coin_rates _ _)
  · exact C79_reverse_chance (n := 2) coin (fun _ => toyEnc_sensible) (by decide) (by decide) (by decide) exSpec _ h 1 (by decide) coinInput
      (by decide) _ rfl (by decide) 2 (by decide) (by decide) _ hp "o" (coin_rates _ _)
  · exact C79_block_chance (n := 2) coin (fun _ => toyEnc_sensible) (by decide) (by decide) (by decide) exSpec _ h 1 (by decide) coinInput
      (by decide) (by decide) _ rfl (by decide) 2 2 (liveBits_of_size h2 (by rw [hs]; decide)) (by decide) (by decide) (by decide) (by decide) _ hp
      (coin_rates _ _)
  · exact C79_flut_chance (n := 2) coin (fun _ => toyEnc_sensible) (by decide) (by decide) (by decide) exSpec _ h 1 (by decide) coinInput
      (by decide) _ rfl (by decide) (some 2) 2 1 2 (by have := liveMax_of_size h2; rwa [hs] at this) (by decide) (by decide) (by decide) (by decide)
      (by decide) (by decide) (by decide) _ hp "o" (coin_rates _ _)

end Homfa
