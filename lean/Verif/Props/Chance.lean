import Verif.Proof.Chance
import Mathlib.MeasureTheory.Measure.Dirac

/-!
# C78: the chance of a wrong verdict

The library's bounds hold with high probability, not surely.  If the chances of single failures are known, then the chance that the commands do
not print what `run plain` prints is at most their sum over the bits of the input and the calls of the run; which calls these are is
the same for all keys and ciphertexts.  No independence is assumed.
-/

namespace Homfa

open MeasureTheory
open scoped ENNReal

variable {N n l : Nat} {Ω : Type} [MeasurableSpace Ω] (μ : Measure Ω) {S : Ω → Scheme N n l} {Enc : Ω → Gsw l N → Bool → Prop}
  {rand : Ω → Nat → Nat} {δ : Noise} {εe : ℝ≥0∞} {ε : CallKind → ℝ≥0∞}

/-- **C78** (OFFLINE). -/
theorem C78_offline (hE : ∀ ω, SensibleEnc (Enc ω)) (hN : 0 < N) (hl : 0 < l) (hbs : blockSize l N < 2 ^ 63) (spec : List Char) (ap : Nat)
    (hap : 0 < ap) (rs : List (List Byte)) (hrs : ∀ r ∈ rs, r.length = recordBytes ap) (w : List Bool) (hw : w = rs.flatMap (recordBits ap))
    (hsize : w.length * blockSize l N < 2 ^ 63) (h31 : w.length < 2 ^ 31) (boot : Nat) (hb : 0 < boot) (hbud : δ.br + boot * δ.cmux + δ.ks + δ.ms < 2 ^ 30)
    (out : List Char) (hplain : doRunPlain spec (some rs.flatten) ap = .ok out)
    (hrate : FailureRates μ S Enc rand δ w (fun cs => doRunOfflineC spec w.length cs.reverse boot false) εe ε) :
    ∃ K, MakesCalls w.length (fun cs : List (Gsw l N) => (doRunOfflineC spec w.length cs.reverse boot false : Comp N n l _)) K ∧
      μ {ω | ¬ OfflinePrints (S ω) (rand ω) spec rs.flatten ap boot out} ≤ w.length * εe + (K.map ε).sum := by
  obtain ⟨K, hK⟩ := makesCalls_of (fun cs : List (Gsw l N) => (doRunOfflineC spec w.length cs.reverse boot false : Comp N n l _)) w.length
    fun T T' cs cs' h => (C63_calls T T' cs.reverse cs'.reverse (by simp [h]) spec w.length none none 1 1 boot none false false).1
  refine ⟨K, hK, chance hrate hK fun ω h1 h2 => ?_⟩
  subst hw
  obtain ⟨file, k1, k2⟩ := C69_offline (hE ω) hN hl hbs (rand ω) spec _ ap hap (encryptsWell_of hap hrs h1) boot hb hbud out hplain
  obtain ⟨e1, e2⟩ := enc_file _ _ hap hrs k1
  refine ⟨file, k1, fun pre cs hr => k2 (by omega) (by rw [e2]; exact Nat.mul_lt_mul_of_pos_right h31 (blockSize_pos hl hN)) pre cs hr ?_⟩
  rw [e1] at hr
  obtain ⟨rfl, h3, h4⟩ := readsReversed_eq (blockSize_pos hl hN) hbs (by rw [← e1]; omega) hr
  have h5 : pre.headD 0 = (rs.flatMap (recordBits ap)).length := by
    cases pre with
    | nil => exact absurd rfl h3
    | cons a pre => exact (h4 a (by simp)).trans (by simp [ctxts])
  rw [h5]
  exact h2

/-- **C78** (REVERSE). -/
theorem C78_reverse (hE : ∀ ω, SensibleEnc (Enc ω)) (hN : 0 < N) (hl : 0 < l) (hbs : blockSize l N < 2 ^ 63) (spec : List Char) (ap : Nat)
    (hap : 0 < ap) (rs : List (List Byte)) (hrs : ∀ r ∈ rs, r.length = recordBytes ap) (w : List Bool) (hw : w = rs.flatMap (recordBits ap))
    (hsize : w.length * blockSize l N < 2 ^ 63) (boot : Nat) (hb : 0 < boot) (hbud : δ.br + boot * δ.cmux + δ.ks + δ.ms < 2 ^ 30)
    (out : List Char) (hplain : doRunPlain spec (some rs.flatten) ap = .ok out) (outName : String)
    (hrate : FailureRates μ S Enc rand δ w (fun cs => doRunReverseC spec w.length cs (some outName) none 1 boot false false) εe ε) :
    ∃ K, MakesCalls w.length (fun cs : List (Gsw l N) => (doRunReverseC spec w.length cs (some outName) none 1 boot false false : Comp N n l _)) K ∧
      μ {ω | ¬ ReversePrints (S ω) (rand ω) spec rs.flatten ap outName boot out} ≤ w.length * εe + (K.map ε).sum := by
  obtain ⟨K, hK⟩ := makesCalls_of
    (fun cs : List (Gsw l N) => (doRunReverseC spec w.length cs (some outName) none 1 boot false false : Comp N n l _)) w.length
    fun T T' cs cs' h => (C63_calls T T' cs cs' h spec w.length (some outName) none 1 1 boot none false false).2.1
  refine ⟨K, hK, chance hrate hK fun ω h1 h2 => ?_⟩
  subst hw
  obtain ⟨file, k1, k2⟩ := C69_reverse (hE ω) hN hl hbs (rand ω) spec _ ap hap (encryptsWell_of hap hrs h1) boot hb hbud out hplain outName 1 false
  obtain ⟨e1, e2⟩ := enc_file _ _ hap hrs k1
  refine ⟨file, k1, fun pre cs hne hr => ?_⟩
  have hr' := hr
  rw [e1] at hr
  obtain ⟨rfl, h4⟩ := readsForward_eq (blockSize_pos hl hN) hbs (by rw [← e1]; omega) hr
  have h5 : pre.getLastD 0 = (rs.flatMap (recordBits ap)).length := (last_size hne h4).trans (by simp [ctxts])
  obtain ⟨c, c1, c2, _⟩ := k2 (by omega) pre _ hr' (by rw [h5]; exact h2)
  exact ⟨c, c1, c2 rfl⟩

/-- **C78** (BLOCK). -/
theorem C78_block (hE : ∀ ω, SensibleEnc (Enc ω)) (hN : 0 < N) (hl : 0 < l) (hbs : blockSize l N < 2 ^ 63) (spec : List Char) (ap : Nat)
    (hap : 0 < ap) (rs : List (List Byte)) (hrs : ∀ r ∈ rs, r.length = recordBytes ap) (hne : rs ≠ []) (w : List Bool)
    (hw : w = rs.flatMap (recordBits ap)) (hsize : w.length * blockSize l N < 2 ^ 63) (qs B : Nat)
    (hB : ∀ g, Graph.fromIstream spec = .ok g → LiveBits g B) (hBN : B < N) (hB31 : B < 31)
    (hbud : (max 1 qs + B) * δ.cmux + δ.cb < 2 ^ 29) (hint : qs ≤ 2 ^ 31) (out : List Char) (hplain : doRunPlain spec (some rs.flatten) ap = .ok out)
    (hrate : FailureRates μ S Enc rand δ w (fun cs => doRunBlockC spec cs qs false) εe ε) :
    ∃ K, MakesCalls w.length (fun cs : List (Gsw l N) => (doRunBlockC spec cs qs false : Comp N n l _)) K ∧
      μ {ω | ¬ BlockPrints (S ω) (rand ω) spec rs.flatten ap qs out} ≤ w.length * εe + (K.map ε).sum := by
  obtain ⟨K, hK⟩ := makesCalls_of (fun cs : List (Gsw l N) => (doRunBlockC spec cs qs false : Comp N n l _)) w.length
    fun T T' cs cs' h => (C63_calls T T' cs cs' h spec w.length none none 1 qs 1 none false false).2.2.1
  refine ⟨K, hK, chance hrate hK fun ω h1 h2 => ?_⟩
  subst hw
  obtain ⟨file, k1, k2⟩ := C69_block (hE ω) hN hl hbs (rand ω) spec _ ap hap (encryptsWell_of hap hrs h1) qs B hB hBN hB31 hbud hint out hplain
  obtain ⟨e1, e2⟩ := enc_file _ _ hap hrs k1
  refine ⟨file, k1, fun pre cs hr => ?_⟩
  have hr' := hr
  rw [e1] at hr
  obtain ⟨rfl, h4⟩ := readsForward_eq (blockSize_pos hl hN) hbs (by rw [← e1]; omega) hr
  refine k2 (by omega) pre _ hr' ?_ h2
  cases rs with
  | nil => exact absurd rfl hne
  | cons r rs =>
    have := hrs r (by simp)
    intro h0
    rw [Option.some.injEq, List.flatten_cons, List.append_eq_nil_iff] at h0
    rw [h0.1] at this
    unfold recordBytes at this
    simp at this
    omega

/-- **C78** (FLUT). -/
theorem C78_flut (hE : ∀ ω, SensibleEnc (Enc ω)) (hN : 0 < N) (hl : 0 < l) (hbs : blockSize l N < 2 ^ 63) (spec : List Char) (ap : Nat)
    (hap : 0 < ap) (rs : List (List Byte)) (hrs : ∀ r ∈ rs, r.length = recordBytes ap) (w : List Bool) (hw : w = rs.flatMap (recordBits ap))
    (hsize : w.length * blockSize l N < 2 ^ 63) (maxSecond : Option Nat) (qs boot L : Nat)
    (hL : ∀ g, Graph.fromIstream spec = .ok g → LiveMax g L) (hLs : L < 2 ^ maxSecond.getD 8) (hqs0 : 0 < qs) (hqs : qs < 31)
    (hmax : maxSecond.getD 8 < 31) (hmaxN : 2 ^ maxSecond.getD 8 ≤ N) (hb : 0 < boot)
    (hbud : L * 2 ^ (qs / 2) * flutErr δ L qs (boot - 1) + qs * δ.cmux + δ.ks + δ.ms < 2 ^ 30)
    (out : List Char) (hplain : doRunPlain spec (some rs.flatten) ap = .ok out) (outName : String)
    (hrate : FailureRates μ S Enc rand δ w (fun cs => doRunFlutC spec w.length cs (some outName) none 1 qs boot maxSecond false) εe ε) :
    ∃ K, MakesCalls w.length
        (fun cs : List (Gsw l N) => (doRunFlutC spec w.length cs (some outName) none 1 qs boot maxSecond false : Comp N n l _)) K ∧
      μ {ω | ¬ FlutPrints (S ω) (rand ω) spec rs.flatten ap outName qs boot maxSecond out} ≤ w.length * εe + (K.map ε).sum := by
  obtain ⟨K, hK⟩ := makesCalls_of
    (fun cs : List (Gsw l N) => (doRunFlutC spec w.length cs (some outName) none 1 qs boot maxSecond false : Comp N n l _)) w.length
    fun T T' cs cs' h => (C63_calls T T' cs cs' h spec w.length (some outName) none 1 qs boot maxSecond false false).2.2.2
  refine ⟨K, hK, chance hrate hK fun ω h1 h2 => ?_⟩
  subst hw
  obtain ⟨file, k1, k2⟩ := C69_flut (hE ω) hN hl hbs (rand ω) spec _ ap hap (encryptsWell_of hap hrs h1) maxSecond qs boot L hL hqs0 hqs hmax hmaxN
    hb hbud out hplain outName 1
  obtain ⟨e1, e2⟩ := enc_file _ _ hap hrs k1
  refine ⟨file, k1, fun pre cs hne hr => ?_⟩
  have hr' := hr
  rw [e1] at hr
  obtain ⟨rfl, h4⟩ := readsForward_eq (blockSize_pos hl hN) hbs (by rw [← e1]; omega) hr
  have h5 : pre.getLastD 0 = (rs.flatMap (recordBits ap)).length := (last_size hne h4).trans (by simp [ctxts])
  obtain ⟨c1, c2⟩ := k2 (by omega) pre _ hr' (by rw [h5]; exact h2)
  exact c2.resolve_left (c1 hLs)

/-! ## A library that is broken for one key out of a hundred -/

/-- the chance of the two keys -/
noncomputable def coin : Measure Bool := (1 / 100 : ℝ≥0∞) • Measure.dirac true + (99 / 100 : ℝ≥0∞) • Measure.dirac false

/-- for the second key, encryption gives the wrong bit and CMUX gives 1/4 whatever its arguments are -/
def coinScheme : Bool → Scheme 4 2 1
  | false => toyScheme 4 2 1 ⟨![1, 0, 1, 1], ![1, 0]⟩
  | true =>
    let T := toyScheme 4 2 1 ⟨![1, 0, 1, 1], ![1, 0]⟩
    { T with encrypt := fun r b => T.encrypt r (!b), cmux := fun _ _ _ => trivialTRLWE fun _ => mu4 }

/-- only encryption and CMUX ever fail -/
noncomputable def coinRate (k : CallKind) : ℝ≥0∞ := if k = .cmux then 1 / 100 else 0

theorem coin_le {s : Set Bool} (h : false ∉ s) : coin s ≤ 1 / 100 := by
  have : s ⊆ {true} := fun b hb => by cases b with
    | false => exact absurd hb h
    | true => rfl
  refine (measure_mono this).trans ?_
  simp [coin]

theorem coin_univ : coin Set.univ = 1 := by
  simp only [coin, Measure.add_apply, Measure.smul_apply, measure_univ, smul_eq_mul, mul_one]
  rw [← ENNReal.add_div, show (1 + 99 : ℝ≥0∞) = 100 by norm_num]
  exact ENNReal.div_self (by norm_num) (by norm_num)

theorem coin_rates {α : Type} (w : List Bool) (p : List (Gsw 1 4) → Comp 4 2 1 α) :
    FailureRates coin coinScheme (fun _ => toyEnc) (fun _ m => m) toyNoise w p (1 / 100) coinRate where
  enc m b _ := coin_le fun h => h ⟨by decide, by decide, rfl⟩
  call i k := by
    have hs := C69_sound_iff.1 (toy_sound (N := 4) (n := 2) (l := 1) ⟨![1, 0, 1, 1], ![1, 0]⟩ (by decide) (by decide))
    by_cases hk : k = .cmux
    · rw [coinRate, if_pos hk]
      refine coin_le ?_
      rintro ⟨c, -, -, hc⟩
      exact hc (hs.1 c)
    · rw [coinRate, if_neg hk, nonpos_iff_eq_zero]
      convert measure_empty (μ := coin)
      ext ω
      simp only [Set.mem_setOf_eq, Set.mem_empty_iff_false, iff_false]
      rintro ⟨c, -, h1, hc⟩
      refine hc ?_
      have := hs.1 c
      cases ω with
      | false => exact this
      | true => cases c with
        | cmux g c1 c0 => exact absurd h1.symm hk
        | iks c => exact this
        | blindRotate c tv => exact this
        | tlwe2trlwe c => exact this
        | cb c => exact this

/-- the input: three records of one bit -/
def coinInput : List (List Byte) := [[1#8], [0#8], [1#8]]

theorem coin_sum {K : List CallKind} {m k : Nat} (hk : K.count .cmux = k) :
    (m : ℝ≥0∞) * (1 / 100) + (K.map coinRate).sum = (m + k : ℕ) / 100 := by
  have : (K.map coinRate).sum = (K.count .cmux : ℝ≥0∞) * (1 / 100) := by
    induction K generalizing k with
    | nil => simp
    | cons a K ih =>
      rw [List.map_cons, List.sum_cons, ih rfl, List.count_cons]
      by_cases ha : a = .cmux
      · simp [coinRate, ha]
        ring
      · simp [coinRate, ha]
  rw [this, hk, ← add_mul, mul_one_div, Nat.cast_add]

/-- The hypotheses of C78 hold of it, and the chances come to: OFFLINE, three encryptions and five CMUX gates, 8/100; REVERSE, nine gates, 12/100;
BLOCK, eight gates, 11/100; FLUT, three gates, 6/100. -/
example :
    coin {ω | ¬ OfflinePrints (coinScheme ω) (fun m => m) exSpec coinInput.flatten 1 2 ['1']} ≤ (8 : ℕ) / 100 ∧
    coin {ω | ¬ ReversePrints (coinScheme ω) (fun m => m) exSpec coinInput.flatten 1 "o" 2 ['1']} ≤ (12 : ℕ) / 100 ∧
    coin {ω | ¬ BlockPrints (coinScheme ω) (fun m => m) exSpec coinInput.flatten 1 2 ['1']} ≤ (11 : ℕ) / 100 ∧
    coin {ω | ¬ FlutPrints (coinScheme ω) (fun m => m) exSpec coinInput.flatten 1 "o" 2 1 (some 2) ['1']} ≤ (6 : ℕ) / 100 := by
  have hp : doRunPlain exSpec (some coinInput.flatten) 1 = .ok ['1'] := by decide +kernel
  have hg : ∀ g, Graph.fromIstream exSpec = .ok g → g.WF ∧ g.size = 2 := by
    intro g h
    obtain ⟨g', _, _, h1, h2, _⟩ := plain_ok (by omega) hp
    rw [h] at h1
    cases h1
    have : (Graph.fromIstream exSpec).map Graph.size = .ok 2 := by decide +kernel
    rw [h] at this
    exact ⟨h2, Except.ok.inj this⟩
  refine ⟨?_, ?_, ?_, ?_⟩
  · obtain ⟨K, h1, h2⟩ := C78_offline (n := 2) coin (fun _ => toyEnc_sensible) (by decide) (by decide) (by decide) exSpec 1 (by decide) coinInput
      (by decide) _ rfl (by decide) (by decide) 2 (by decide) (by decide) _ hp (coin_rates _ _)
    have h3 := h1 (coinScheme false) (List.replicate 3 fun _ _ _ => 0#64) rfl
    exact h2.trans_eq (coin_sum (m := 3) (k := 5) (by rw [← h3]; decide +kernel))
  · obtain ⟨K, h1, h2⟩ := C78_reverse (n := 2) coin (fun _ => toyEnc_sensible) (by decide) (by decide) (by decide) exSpec 1 (by decide) coinInput
      (by decide) _ rfl (by decide) 2 (by decide) (by decide) _ hp "o" (coin_rates _ _)
    have h3 := h1 (coinScheme false) (List.replicate 3 fun _ _ _ => 0#64) rfl
    exact h2.trans_eq (coin_sum (m := 3) (k := 9) (by rw [← h3]; decide +kernel))
  · obtain ⟨K, h1, h2⟩ := C78_block (n := 2) coin (fun _ => toyEnc_sensible) (by decide) (by decide) (by decide) exSpec 1 (by decide) coinInput
      (by decide) (by decide) _ rfl (by decide) 2 2 (fun g h => liveBits_of_size (hg g h).1 (by rw [(hg g h).2]; decide)) (by decide) (by decide) (by decide) (by decide) _ hp (coin_rates _ _)
    have h3 := h1 (coinScheme false) (List.replicate 3 fun _ _ _ => 0#64) rfl
    exact h2.trans_eq (coin_sum (m := 3) (k := 8) (by rw [← h3]; decide +kernel))
  · obtain ⟨K, h1, h2⟩ := C78_flut (n := 2) coin (fun _ => toyEnc_sensible) (by decide) (by decide) (by decide) exSpec 1 (by decide) coinInput
      (by decide) _ rfl (by decide) (some 2) 2 1 2
      (fun g h => by have := liveMax_of_size (hg g h).1; rwa [(hg g h).2] at this) (by decide) (by decide) (by decide) (by decide) (by decide) (by decide) (by decide) _ hp "o"
      (coin_rates _ _)
    have h3 := h1 (coinScheme false) (List.replicate 3 fun _ _ _ => 0#64) rfl
    exact h2.trans_eq (coin_sum (m := 3) (k := 3) (by rw [← h3]; decide +kernel))

end Homfa
