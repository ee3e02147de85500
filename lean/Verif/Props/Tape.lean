import Verif.Proof.Tape

/-!
# C82: the chance that the README's commands print something wrong

C61 says what the command lines of the README print if the library keeps to its bounds; C78 and C79 say how likely the functions behind single
commands go wrong.  Here the two are put together: five runs of the program, each with its own random numbers, in a file system, from the
command lines to the output of `dec`.
-/

namespace Homfa.Cli

open MeasureTheory
open scoped ENNReal

variable {N n l : Nat}

/-- **C82**: the runs of C61 are the runs with given random numbers, for all of them together. -/
theorem C82_tapes (L : Lib N n l) (fs : Files) (cmds : List (List String)) (r : Res (Files × List Char)) :
    Script L fs cmds r ↔ ∃ ts, ScriptOn L ts fs cmds r := script_iff_on

/-- **C82**: so commands that print `out` with all random numbers always print it. -/
theorem C82_always (L : Lib N n l) (fs : Files) (cmds : List (List String)) (out : List Char) (changed : List String)
    (h : ∀ ts, PrintsOn L ts fs cmds out changed) : AlwaysPrints L fs cmds out changed := by
  constructor
  · obtain ⟨r, hr⟩ := (h fun _ _ => 0).1
    exact ⟨r, script_iff_on.2 ⟨_, hr⟩⟩
  · intro r hr
    obtain ⟨ts, hr⟩ := script_iff_on.1 hr
    exact (h ts).2 r hr

variable {Ω : Type} [MeasurableSpace Ω] (μ : Measure Ω) {L : Lib N n l} {ts : Ω → Nat → Nat → Nat} {Enc : L.Key → Gsw l N → Bool → Prop} {δ : Noise}
  {εe : ℝ≥0∞} {ε : CallKind → ℝ≥0∞} {S I K B C R : String} {specB : List Byte} {rs : List (List Byte)} {ap : Nat} {w : List Bool}
  {g : Graph} {fs fs' : Files} {out : List Char}

/-- **C82**, `run offline` -/
theorem C82_offline (hL : L.Archives) (hE : ∀ k, SensibleEnc (Enc k)) (hN : 0 < N) (hl : 0 < l) (hbs : blockSize l N < 2 ^ 63)
    (hn : Usable S I K B C R) (hs : fs S = some specB) (hi : fs I = some rs.flatten) (hg : Graph.fromIstream (textOf specB) = .ok g)
    (hap : 0 < ap) (hap64 : ap < 2 ^ 64) (hrs : ∀ r ∈ rs, r.length = recordBytes ap) (hw : w = rs.flatMap (recordBits ap))
    (hsize : w.length * blockSize l N < 2 ^ 63) (h31 : w.length < 2 ^ 31) {boot : Nat} (hb : 0 < boot) (hb64 : boot < 2 ^ 64)
    (hbud : δ.br + boot * δ.cmux + δ.ks + δ.ms < 2 ^ 30)
    (hplain : RunHomfa L [] fs ["run", "plain", "--ap", toString ap, "--spec", S, "--in", I] (.ok (fs', out)))
    (hrate : FailureRates μ (fun ω => L.pairOn (ts ω)) (fun ω => Enc (L.keyOn (ts ω))) (fun ω => ts ω 2) δ w
      (fun cs => doRunOfflineC (textOf specB) w.length cs.reverse boot false) εe ε) :
    ∃ m D, g.minimized = .ok m ∧ Levels m [m.initialState] D ∧
      μ {ω | ¬ PrintsOn L (ts ω) fs [["genkey", "--out", K], ["genbkey", "--key", K, "--out", B],
        ["enc", "--ap", toString ap, "--key", K, "--in", I, "--out", C],
        ["run", "offline", "--bkey", B, "--out", R, "--spec", S, "--in", C, "--bootstrapping-freq", toString boot],
        ["dec", "--key", K, "--in", R]] out [K, B, C, R]} ≤
        w.length * εe + ((streamCalls boot (fun i => (D (w.length - 1 - i)).length) w.length).map ε).sum := by
  have hp := plain_text (hn.words S (by simp)) (hn.words I (by simp)) hs hi hap hap64 hplain
  obtain ⟨m, D, h1, h2, h3⟩ := C79_offline_chance μ (fun ω => hE _) hN hl hbs _ g hg ap hap rs hrs w hw hsize h31 boot hb hbud out hp hrate
  refine ⟨m, D, h1, h2, (measure_mono fun ω hω => ?_).trans h3⟩
  intro ho
  obtain ⟨file, henc, -⟩ := id ho
  exact hω (pipelineOn hL hn fs hs hi hap hap64 henc _ (rightOn_offline hL hN hl hbs hn hap hrs (hw ▸ hsize) hb hb64 ho))

/-- **C82**, `run reverse` -/
theorem C82_reverse (hL : L.Archives) (hE : ∀ k, SensibleEnc (Enc k)) (hN : 0 < N) (hl : 0 < l) (hbs : blockSize l N < 2 ^ 63)
    (hn : Usable S I K B C R) (hs : fs S = some specB) (hi : fs I = some rs.flatten) (hg : Graph.fromIstream (textOf specB) = .ok g)
    (hap : 0 < ap) (hap64 : ap < 2 ^ 64) (hrs : ∀ r ∈ rs, r.length = recordBytes ap) (hw : w = rs.flatMap (recordBits ap))
    (hsize : w.length * blockSize l N < 2 ^ 63) {freq boot : Nat} (hf : 0 < freq) (hf64 : freq < 2 ^ 64) (hb : 0 < boot) (hb64 : boot < 2 ^ 64)
    (hbud : δ.br + boot * δ.cmux + δ.ks + δ.ms < 2 ^ 30)
    (hplain : RunHomfa L [] fs ["run", "plain", "--ap", toString ap, "--spec", S, "--in", I] (.ok (fs', out)))
    (hrate : FailureRates μ (fun ω => L.pairOn (ts ω)) (fun ω => Enc (L.keyOn (ts ω))) (fun ω => ts ω 2) δ w
      (fun cs => doRunReverseC (textOf specB) w.length cs (some R) none freq boot false false) εe ε) :
    ∃ m, g.reversed >>= Graph.minimized = .ok m ∧
      μ {ω | ¬ PrintsOn L (ts ω) fs [["genkey", "--out", K], ["genbkey", "--key", K, "--out", B],
        ["enc", "--ap", toString ap, "--key", K, "--in", I, "--out", C],
        ["run", "reverse", "--bkey", B, "--out", R, "--spec", S, "--in", C, "--out-freq", toString freq,
          "--bootstrapping-freq", toString boot],
        ["dec", "--key", K, "--in", R]] out [K, B, C, R]} ≤
        w.length * εe + ((streamCalls boot (fun _ => m.size) w.length).map ε).sum := by
  have hp := plain_text (hn.words S (by simp)) (hn.words I (by simp)) hs hi hap hap64 hplain
  simp only [doRunReverseC_freq _ _ _ _ freq 1] at hrate
  obtain ⟨m, h1, h3⟩ := C79_reverse_chance μ (fun ω => hE _) hN hl hbs _ g hg ap hap rs hrs w hw hsize boot hb hbud out hp R hrate
  refine ⟨m, h1, (measure_mono fun ω hω => ?_).trans h3⟩
  intro ho
  obtain ⟨file, henc, -⟩ := id ho
  exact hω (pipelineOn hL hn fs hs hi hap hap64 henc _ (rightOn_reverse hL hN hl hbs hn hap hrs (hw ▸ hsize) hf hf64 hb hb64 ho))

/-- **C82**, `run block`: for an input that is not empty -/
theorem C82_block (hL : L.Archives) (hE : ∀ k, SensibleEnc (Enc k)) (hN : 0 < N) (hl : 0 < l) (hbs : blockSize l N < 2 ^ 63)
    (hn : Usable S I K B C R) (hs : fs S = some specB) (hi : fs I = some rs.flatten) (hg : Graph.fromIstream (textOf specB) = .ok g)
    (hap : 0 < ap) (hap64 : ap < 2 ^ 64) (hrs : ∀ r ∈ rs, r.length = recordBytes ap) (hne : rs ≠ []) (hw : w = rs.flatMap (recordBits ap))
    (hsize : w.length * blockSize l N < 2 ^ 63) {freq queue W : Nat} (hf : 0 < freq) (hf64 : freq < 2 ^ 64) (hq : 0 < queue) (hqi : queue ≤ 2 ^ 31)
    (hW : LiveBits g W) (hWN : W < N) (hW31 : W < 31) (hbud : (queue + W) * δ.cmux + δ.cb < 2 ^ 29)
    (hplain : RunHomfa L [] fs ["run", "plain", "--ap", toString ap, "--spec", S, "--in", I] (.ok (fs', out)))
    (hrate : FailureRates μ (fun ω => L.pairOn (ts ω)) (fun ω => Enc (L.keyOn (ts ω))) (fun ω => ts ω 2) δ w
      (fun cs => doRunBlockC (textOf specB) cs queue false) εe ε) :
    ∃ D, Levels g [g.initialState] D ∧
      μ {ω | ¬ PrintsOn L (ts ω) fs [["genkey", "--out", K], ["genbkey", "--key", K, "--out", B],
        ["enc", "--ap", toString ap, "--key", K, "--in", I, "--out", C],
        ["run", "block", "--bkey", B, "--out", R, "--spec", S, "--in", C, "--out-freq", toString freq, "--queue-size", toString queue],
        ["dec", "--key", K, "--in", R]] out [K, B, C, R]} ≤
        w.length * εe + ((inBlocks queue w.length fun _ s k => blockCalls (fun j => (D j).length) s k).map ε).sum := by
  have hp := plain_text (hn.words S (by simp)) (hn.words I (by simp)) hs hi hap hap64 hplain
  obtain ⟨D, h1, h3⟩ := C79_block_chance μ (fun ω => hE _) hN hl hbs _ g hg ap hap rs hrs hne w hw hsize queue W hW hWN hW31
    (by rwa [Nat.max_eq_right hq]) hqi out hp hrate
  rw [Nat.max_eq_right hq] at h3
  refine ⟨D, h1, (measure_mono fun ω hω => ?_).trans h3⟩
  intro ho
  obtain ⟨file, henc, -⟩ := id ho
  exact hω (pipelineOn hL hn fs hs hi hap hap64 henc _ (rightOn_block hL hN hl hbs hn hap hrs (hw ▸ hsize) hf hf64 hq (by omega) ho))

/-- **C82**, `run flut` -/
theorem C82_flut (hL : L.Archives) (hE : ∀ k, SensibleEnc (Enc k)) (hN : 0 < N) (hl : 0 < l) (hbs : blockSize l N < 2 ^ 63)
    (hn : Usable S I K B C R) (hs : fs S = some specB) (hi : fs I = some rs.flatten) (hg : Graph.fromIstream (textOf specB) = .ok g)
    (hap : 0 < ap) (hap64 : ap < 2 ^ 64) (hrs : ∀ r ∈ rs, r.length = recordBytes ap) (hw : w = rs.flatMap (recordBits ap))
    (hsize : w.length * blockSize l N < 2 ^ 63) {freq queue depth boot W : Nat} (hf : 0 < freq) (hf64 : freq < 2 ^ 64)
    (hq : 0 < queue) (hq31 : queue < 31) (hd : 0 < depth) (hd31 : depth < 31) (hdN : 2 ^ depth ≤ N) (hb : 0 < boot) (hb64 : boot < 2 ^ 64)
    (hW : LiveMax g W) (hWd : W < 2 ^ depth)
    (hbud : W * 2 ^ (queue / 2) * flutErr δ W queue (boot - 1) + queue * δ.cmux + δ.ks + δ.ms < 2 ^ 30)
    (hplain : RunHomfa L [] fs ["run", "plain", "--ap", toString ap, "--spec", S, "--in", I] (.ok (fs', out)))
    (hrate : FailureRates μ (fun ω => L.pairOn (ts ω)) (fun ω => Enc (L.keyOn (ts ω))) (fun ω => ts ω 2) δ w
      (fun cs => doRunFlutC (textOf specB) w.length cs (some R) none freq queue boot (some depth) false) εe ε) :
    ∃ D, Levels g [g.initialState] D ∧
      μ {ω | ¬ PrintsOn L (ts ω) fs [["genkey", "--out", K], ["genbkey", "--key", K, "--out", B],
        ["enc", "--ap", toString ap, "--key", K, "--in", I, "--out", C],
        ["run", "flut", "--bkey", B, "--out", R, "--spec", S, "--in", C, "--out-freq", toString freq, "--queue-size", toString queue,
          "--max-second-lut-depth", toString depth, "--bootstrapping-freq", toString boot],
        ["dec", "--key", K, "--in", R]] out [K, B, C, R]} ≤
        w.length * εe + ((inBlocks queue w.length fun b s k => flutCalls (fun j => (D j).length) depth boot b s k).map ε).sum := by
  have hp := plain_text (hn.words S (by simp)) (hn.words I (by simp)) hs hi hap hap64 hplain
  simp only [doRunFlutC_freq _ _ _ _ freq 1] at hrate
  obtain ⟨D, h1, h3⟩ := C79_flut_chance μ (fun ω => hE _) hN hl hbs _ g hg ap hap rs hrs w hw hsize (some depth) queue boot W hW hWd hq hq31 hd31 hdN
    hb hbud out hp R hrate
  refine ⟨D, h1, (measure_mono fun ω hω => ?_).trans h3⟩
  intro ho
  obtain ⟨file, henc, -⟩ := id ho
  exact hω (pipelineOn hL hn fs hs hi hap hap64 henc _
    (rightOn_flut hL hN hl hbs hn hap hrs (hw ▸ hsize) hf hf64 hq (by omega) hd (by omega) hb hb64 ho))

/-! ## The hypotheses are met -/

/-- a library that encrypts the wrong bit when the random number is 0 -/
noncomputable def slipLib (N n l : Nat) (φ : TLWE N → Nat) : Lib N n l :=
  { toyLib N n l φ with encrypt := fun k r b => (toyLib N n l φ).encrypt k r (if r = 0 then !b else b) }

/-- with chance 1/100 the first random number drawn by `enc` is 0 -/
def slipTapes (ω : Bool) (i m : Nat) : Nat := if ω = true ∧ i = 2 then m else m + 1

theorem slip_archives {φ : TLWE N → Nat} (hl : 0 < l) (hN : 0 < N) (hφ : Function.Injective φ) : (slipLib N n l φ).Archives := by
  have h := toyLib_sound (n := n) hl hN hφ
  exact ⟨h.key, h.bkey, h.res⟩

theorem slip_rates {φ : TLWE N → Nat} (hl : 0 < l) (hN : 0 < N) (hφ : Function.Injective φ) {α : Type} (w : List Bool)
    (p : List (Gsw l N) → Comp N n l α) :
    FailureRates coin (fun ω => (slipLib N n l φ).pairOn (slipTapes ω)) (fun _ => toyEnc) (fun ω => slipTapes ω 2) toyNoise w p (1 / 100)
      (fun _ => 0) where
  enc m b _ := by
    refine coin_le fun h => h ⟨hl, hN, ?_⟩
    rfl
  call i k := by
    rw [nonpos_iff_eq_zero]
    convert measure_empty (μ := coin)
    ext ω
    simp only [Set.mem_setOf_eq, Set.mem_empty_iff_false, iff_false]
    rintro ⟨c, -, h1, hc⟩
    refine hc ?_
    have := (C69_sound_iff.1 ((toyLib_sound (n := n) hl hN hφ).pair (slipTapes ω 0 0) (slipTapes ω 1 0))).1 c
    cases c <;> exact this

/-- the input of `exFiles`, as records of five bits -/
def slipInput : List (List Byte) := [[0x1f#8], [0xe1#8], [0x10#8]]

theorem slip_plain (L : Lib N n l) : RunHomfa L [] exFiles ["run", "plain", "--ap", toString 5, "--spec", "a.spec", "--in", "in"]
    (.ok (exFiles, ['1'])) := by
  refine (run_plain (specB := exSpec.map fun c => BitVec.ofNat 8 c.toNat) (inB := [0x1f#8, 0xe1#8, 0x10#8]) (by simp [Word]) (by simp [Word])
    rfl rfl (by omega) (by omega)).2 ?_
  have : doRunPlain (textOf (exSpec.map fun c => BitVec.ofNat 8 c.toNat)) (some [0x1f#8, 0xe1#8, 0x10#8]) 5 = .ok ['1'] := by
    decide +kernel
  rw [this]
  rfl

theorem slip_sum (K : List CallKind) : (((slipInput.flatMap (recordBits 5)).length : ℕ) : ℝ≥0∞) * (1 / 100) + (K.map fun _ => (0 : ℝ≥0∞)).sum =
    15 / 100 := by
  have : (slipInput.flatMap (recordBits 5)).length = 15 := by decide
  rw [this]
  simp [mul_one_div, div_eq_mul_inv]

/-- With this library the README's commands go wrong with a chance of at most 15/100, for all four ways of running; and indeed the first bit
that `enc` encrypts is wrong for one of the tapes. -/
example : ∃ L : Lib 16 2 1, (∃ ω, ¬ toyEnc ((L.pairOn (slipTapes ω)).encrypt (slipTapes ω 2 0) true) true) ∧
    coin {ω | ¬ PrintsOn L (slipTapes ω) exFiles [["genkey", "--out", "sk"], ["genbkey", "--key", "sk", "--out", "bk"],
      ["enc", "--ap", toString 5, "--key", "sk", "--in", "in", "--out", "ctxt"],
      ["run", "offline", "--bkey", "bk", "--out", "res", "--spec", "a.spec", "--in", "ctxt", "--bootstrapping-freq", toString 3],
      ["dec", "--key", "sk", "--in", "res"]] ['1'] ["sk", "bk", "ctxt", "res"]} ≤ 15 / 100 ∧
    coin {ω | ¬ PrintsOn L (slipTapes ω) exFiles [["genkey", "--out", "sk"], ["genbkey", "--key", "sk", "--out", "bk"],
      ["enc", "--ap", toString 5, "--key", "sk", "--in", "in", "--out", "ctxt"],
      ["run", "reverse", "--bkey", "bk", "--out", "res", "--spec", "a.spec", "--in", "ctxt", "--out-freq", toString 7,
        "--bootstrapping-freq", toString 3],
      ["dec", "--key", "sk", "--in", "res"]] ['1'] ["sk", "bk", "ctxt", "res"]} ≤ 15 / 100 ∧
    coin {ω | ¬ PrintsOn L (slipTapes ω) exFiles [["genkey", "--out", "sk"], ["genbkey", "--key", "sk", "--out", "bk"],
      ["enc", "--ap", toString 5, "--key", "sk", "--in", "in", "--out", "ctxt"],
      ["run", "block", "--bkey", "bk", "--out", "res", "--spec", "a.spec", "--in", "ctxt", "--out-freq", toString 7, "--queue-size", toString 4],
      ["dec", "--key", "sk", "--in", "res"]] ['1'] ["sk", "bk", "ctxt", "res"]} ≤ 15 / 100 ∧
    coin {ω | ¬ PrintsOn L (slipTapes ω) exFiles [["genkey", "--out", "sk"], ["genbkey", "--key", "sk", "--out", "bk"],
      ["enc", "--ap", toString 5, "--key", "sk", "--in", "in", "--out", "ctxt"],
      ["run", "flut", "--bkey", "bk", "--out", "res", "--spec", "a.spec", "--in", "ctxt", "--out-freq", toString 7,
        "--queue-size", toString 4, "--max-second-lut-depth", toString 3, "--bootstrapping-freq", toString 3],
      ["dec", "--key", "sk", "--in", "res"]] ['1'] ["sk", "bk", "ctxt", "res"]} ≤ 15 / 100 := by
  obtain ⟨φ, hφ⟩ := exists_numbering 16
  have hA := slip_archives (n := 2) (l := 1) (by omega) (by omega) hφ
  obtain ⟨g, _, _, hg, hwf, _⟩ := plain_ok (ap := 5) (input := some []) (out := ['1']) (by omega)
    (show doRunPlain (textOf (exSpec.map fun c => BitVec.ofNat 8 c.toNat)) _ _ = _ by decide +kernel)
  obtain ⟨hwf, hsz⟩ := exSpec_size g hg
  have hR : ∀ {α : Type} (w : List Bool) (p : List (Gsw 1 16) → Comp 16 2 1 α), _ := fun {α} w p =>
    slip_rates (n := 2) (l := 1) (α := α) (by omega) (by omega) hφ w p
  refine ⟨slipLib 16 2 1 φ, ⟨true, ?_⟩, ?_, ?_, ?_, ?_⟩
  · rintro ⟨_, _, h⟩
    exact absurd h (by simp [slipLib, slipTapes, Lib.pairOn, Lib.pair, toyLib, toyScheme])
  · obtain ⟨m, D, -, -, h⟩ := C82_offline coin (δ := toyNoise) (Enc := fun _ => toyEnc) (ts := slipTapes) (εe := 1 / 100) (ε := fun _ => 0) hA (fun _ => toyEnc_sensible_all (by omega) (by omega)) (by omega) (by omega) (by decide) exNames.usable
      (specB := exSpec.map fun c => BitVec.ofNat 8 c.toNat) (rs := slipInput) rfl rfl hg (ap := 5) (by omega) (by omega) (by decide) rfl (by decide) (by decide)
      (boot := 3) (by omega) (by omega) (by decide) (slip_plain _) (hR _ _)
    exact h.trans_eq (slip_sum _)
  · obtain ⟨m, -, h⟩ := C82_reverse coin (δ := toyNoise) (Enc := fun _ => toyEnc) (ts := slipTapes) (εe := 1 / 100) (ε := fun _ => 0) hA (fun _ => toyEnc_sensible_all (by omega) (by omega)) (by omega) (by omega) (by decide) exNames.usable
      (specB := exSpec.map fun c => BitVec.ofNat 8 c.toNat) (rs := slipInput) rfl rfl hg (ap := 5) (by omega) (by omega) (by decide) rfl (by decide)
      (freq := 7) (by omega) (by omega) (boot := 3) (by omega) (by omega) (by decide) (slip_plain _) (hR _ _)
    exact h.trans_eq (slip_sum _)
  · obtain ⟨D, -, h⟩ := C82_block coin (δ := toyNoise) (Enc := fun _ => toyEnc) (ts := slipTapes) (εe := 1 / 100) (ε := fun _ => 0) hA (fun _ => toyEnc_sensible_all (by omega) (by omega)) (by omega) (by omega) (by decide) exNames.usable
      (specB := exSpec.map fun c => BitVec.ofNat 8 c.toNat) (rs := slipInput) rfl rfl hg (ap := 5) (by omega) (by omega) (by decide) (by decide) rfl
      (by decide) (freq := 7) (by omega) (by omega) (queue := 4) (by omega) (by omega) (W := 2) (liveBits_of_size hwf (by rw [hsz]; decide))
      (by omega) (by omega) (by decide) (slip_plain _) (hR _ _)
    exact h.trans_eq (slip_sum _)
  · obtain ⟨D, -, h⟩ := C82_flut coin (δ := toyNoise) (Enc := fun _ => toyEnc) (ts := slipTapes) (εe := 1 / 100) (ε := fun _ => 0) hA (fun _ => toyEnc_sensible_all (by omega) (by omega)) (by omega) (by omega) (by decide) exNames.usable
      (specB := exSpec.map fun c => BitVec.ofNat 8 c.toNat) (rs := slipInput) rfl rfl hg (ap := 5) (by omega) (by omega) (by decide) rfl (by decide)
      (freq := 7) (by omega) (by omega) (queue := 4) (by omega) (by omega) (depth := 3) (by omega) (by omega) (by decide) (boot := 3) (by omega)
      (by omega) (W := 2) (by have := liveMax_of_size hwf; rwa [hsz] at this) (by omega) (by decide) (slip_plain _) (hR _ _)
    exact h.trans_eq (slip_sum _)

end Homfa.Cli
