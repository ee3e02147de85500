import Verif.Proof.FewestLive

/-!
# C123: a minimised spec is within the limits of every method whenever any spec for the same words is
-/

namespace Homfa

/-- **C123.** Among all automata for the same words the minimised one has the fewest states that can be live after `d` inputs, for every `d`: for
any number of them, as many can be live in every other automaton `k` for these words. -/
theorem C123_fewest_live (g k : Graph) (hg : g.WF) (hk : k.WF) (hw : ∀ w, g.accepts w = k.accepts w) (m : Graph) (hm : g.minimized = .ok m)
    (d : Nat) (X : List Nat) (hX : X.Nodup) (hr : ∀ q ∈ X, ∃ w : List Bool, w.length = d ∧ m.runWord m.initialState w = .ok q) :
    ∃ Y : List Nat, Y.Nodup ∧ Y.length = X.length ∧ ∀ q ∈ Y, ∃ w : List Bool, w.length = d ∧ k.runWord k.initialState w = .ok q := by
  obtain ⟨m', h1, h2, _, h3, _, h5⟩ := Graph.minimized_good hg
  rw [hm] at h1
  cases h1
  refine live_inject h2 hk h5 (fun w => ?_) hX hr
  have := hw w
  rw [hg.accepts_eq, hk.accepts_eq] at this
  injection this with this
  rw [h3, this]

/-- **C123**, the limits of BLOCK and FLUT: what holds for any automaton for these words holds for the minimised one. -/
theorem C123_limits (g k : Graph) (hg : g.WF) (hk : k.WF) (hw : ∀ w, g.accepts w = k.accepts w) (m : Graph) (hm : g.minimized = .ok m) (W : Nat) :
    (LiveBits k W → LiveBits m W) ∧ (LiveMax k W → LiveMax m W) := by
  refine ⟨fun h d X hX hr => ?_, fun h d X hX hr => ?_⟩ <;>
  · obtain ⟨Y, y1, y2, y3⟩ := C123_fewest_live g k hg hk hw m hm d X hX hr
    rw [← y2]
    exact h d Y y1 y3

namespace Cli

variable {N n l : Nat} {L : Lib N n l} {δ : Noise} {Enc : L.Key → Gsw l N → Bool → Prop}

/-- **C123**, `run block` from the command line.  If `run plain` prints `out` with a specification and `run block` with some options is within its
limits for it, then `spec2spec --minimized` prints a specification with which the sequence with the same options prints `out`. -/
theorem C123_block (hL : L.Sound δ Enc) (hN : 0 < N) (hl : 0 < l) (hbs : blockSize l N < 2 ^ 63) (stdin : List Char) {fs fs' : Files}
    {S I : String} (wS : Word S) (wI : Word I) {specB inB : List Byte} (hs : fs S = some specB) (hi : fs I = some inB) (hne : inB ≠ [])
    (hlen : 8 * inB.length * blockSize l N < 2 ^ 63) {ap freq queue W : Nat} (hap : 0 < ap) (hap64 : ap < 2 ^ 64) (hf : 0 < freq)
    (hf64 : freq < 2 ^ 64) (hq : 0 < queue) (hqi : queue ≤ 2 ^ 31)
    (hW : ∀ g, Graph.fromIstream (textOf specB) = .ok g → LiveBits g W) (hWN : W < N) (hW31 : W < 31)
    (hbud : (queue + W) * δ.cmux + δ.cb < 2 ^ 29) {out : List Char}
    (hplain : RunHomfa L [] fs ["run", "plain", "--ap", toString ap, "--spec", S, "--in", I] (.ok (fs', out))) :
    ∃ text, JustPrints L stdin fs ["spec2spec", "--minimized", S] text ∧
      (text.length ≤ 2 ^ 31 → ∀ (fs2 : Files) (S2 I2 K B C R : String) (specB2 : List Byte), Names S2 I2 K B C R → fs2 S2 = some specB2 →
        textOf specB2 = text → fs2 I2 = some inB →
        AlwaysPrints L fs2 [["genkey", "--out", K], ["genbkey", "--key", K, "--out", B],
          ["enc", "--ap", toString ap, "--key", K, "--in", I2, "--out", C],
          ["run", "block", "--bkey", B, "--out", R, "--spec", S2, "--in", C, "--out-freq", toString freq, "--queue-size", toString queue],
          ["dec", "--key", K, "--in", R]] out [K, B, C, R]) := by
  have hp := (run_plain wS wI hs hi hap hap64).1 hplain
  have hdo : doRunPlain (textOf specB) (some inB) ap = .ok out := by
    cases h : doRunPlain (textOf specB) (some inB) ap with
    | error e => rw [h] at hp; cases hp
    | ok o => rw [h] at hp; cases hp; rfl
  obtain ⟨g, rs, b, p1, p2, p3, p4, p5, p6⟩ := plain_ok hap hdo
  cases p3
  obtain ⟨m, m1, m2, m3, _⟩ := Graph.minimized_good p2
  obtain ⟨text, t1, t2⟩ := C83_spec2spec (L := L) (flags := ["--minimized"]) (by simp) stdin wS wI hs hap hap64 p4 hi hplain
  refine ⟨text, t1, fun hle fs2 S2 I2 K B C R specB2 hn hS2 ht hI2 => ?_⟩
  have hpm := minimized_text stdin wS hs p1 m1 m2 m3 t1 hle
  have h2 := t2 hle fs2 S2 I2 specB2 ap rs (hn.words S2 (by simp)) (hn.words I2 (by simp)) hS2 ht hap hap64 p4 hI2 (by simp)
  refine C61_block hL hN hl hbs hn fs2 hS2 hI2 hne hlen hap hap64 hf hf64 hq hqi (fun g' hg' => ?_) hWN hW31 hbud ((h2 _).2 (by simp; rfl))
  rw [ht, hpm] at hg'
  cases hg'
  exact (C123_limits g g p2 p2 (fun _ => rfl) m m1 W).1 (hW g p1)

/-- **C123**, `run flut` -/
theorem C123_flut (hL : L.Sound δ Enc) (hN : 0 < N) (hl : 0 < l) (hbs : blockSize l N < 2 ^ 63) (stdin : List Char) {fs fs' : Files}
    {S I : String} (wS : Word S) (wI : Word I) {specB inB : List Byte} (hs : fs S = some specB) (hi : fs I = some inB)
    (hlen : 8 * inB.length * blockSize l N < 2 ^ 63) {ap freq queue depth boot W : Nat} (hap : 0 < ap) (hap64 : ap < 2 ^ 64) (hf : 0 < freq)
    (hf64 : freq < 2 ^ 64) (hq : 0 < queue) (hq31 : queue < 31) (hd : 0 < depth) (hd31 : depth < 31) (hdN : 2 ^ depth ≤ N) (hb : 0 < boot)
    (hb64 : boot < 2 ^ 64) (hW : ∀ g, Graph.fromIstream (textOf specB) = .ok g → LiveMax g W) (hWd : W < 2 ^ depth)
    (hbud : W * 2 ^ (queue / 2) * flutErr δ W queue (boot - 1) + queue * δ.cmux + δ.ks + δ.ms < 2 ^ 30) {out : List Char}
    (hplain : RunHomfa L [] fs ["run", "plain", "--ap", toString ap, "--spec", S, "--in", I] (.ok (fs', out))) :
    ∃ text, JustPrints L stdin fs ["spec2spec", "--minimized", S] text ∧
      (text.length ≤ 2 ^ 31 → ∀ (fs2 : Files) (S2 I2 K B C R : String) (specB2 : List Byte), Names S2 I2 K B C R → fs2 S2 = some specB2 →
        textOf specB2 = text → fs2 I2 = some inB →
        AlwaysPrints L fs2 [["genkey", "--out", K], ["genbkey", "--key", K, "--out", B],
          ["enc", "--ap", toString ap, "--key", K, "--in", I2, "--out", C],
          ["run", "flut", "--bkey", B, "--out", R, "--spec", S2, "--in", C, "--out-freq", toString freq, "--queue-size", toString queue,
            "--max-second-lut-depth", toString depth, "--bootstrapping-freq", toString boot],
          ["dec", "--key", K, "--in", R]] out [K, B, C, R]) := by
  have hp := (run_plain wS wI hs hi hap hap64).1 hplain
  have hdo : doRunPlain (textOf specB) (some inB) ap = .ok out := by
    cases h : doRunPlain (textOf specB) (some inB) ap with
    | error e => rw [h] at hp; cases hp
    | ok o => rw [h] at hp; cases hp; rfl
  obtain ⟨g, rs, b, p1, p2, p3, p4, p5, p6⟩ := plain_ok hap hdo
  cases p3
  obtain ⟨m, m1, m2, m3, _⟩ := Graph.minimized_good p2
  obtain ⟨text, t1, t2⟩ := C83_spec2spec (L := L) (flags := ["--minimized"]) (by simp) stdin wS wI hs hap hap64 p4 hi hplain
  refine ⟨text, t1, fun hle fs2 S2 I2 K B C R specB2 hn hS2 ht hI2 => ?_⟩
  have hpm := minimized_text stdin wS hs p1 m1 m2 m3 t1 hle
  have h2 := t2 hle fs2 S2 I2 specB2 ap rs (hn.words S2 (by simp)) (hn.words I2 (by simp)) hS2 ht hap hap64 p4 hI2 (by simp)
  refine C61_flut hL hN hl hbs hn fs2 hS2 hI2 hlen hap hap64 hf hf64 hq hq31 hd hd31 hdN hb hb64 (fun g' hg' => ?_) hWd hbud ((h2 _).2 (by simp; rfl))
  rw [ht, hpm] at hg'
  cases hg'
  exact (C123_limits g g p2 p2 (fun _ => rfl) m m1 W).2 (hW g p1)

/-! ## The hypotheses are met -/

/-- a specification of four states for the words that end in 1, for which two are enough -/
def fatSpec : List Byte := ">0\t0\t1\n1*\t2\t1\n2\t0\t3\n3*\t2\t3\n".toList.map fun c => BitVec.ofNat 8 c.toNat

/-- what `spec2spec --minimized` prints for it -/
def thinSpec : List Byte := ">0\t0\t1\n1*\t0\t1\n".toList.map fun c => BitVec.ofNat 8 c.toNat

def fatFiles : Files := fun f => if f = "a.spec" then some fatSpec else if f = "in" then some [0x1f#8, 0xe1#8, 0x10#8] else none

def thinFiles : Files := fun f => if f = "a.spec" then some thinSpec else fatFiles f

theorem fatSpec_size (g : Graph) (h : Graph.fromIstream (textOf fatSpec) = .ok g) : g.WF ∧ g.size = 4 := by
  have hp : doRunPlain (textOf fatSpec) (some []) 5 = .ok ['0'] := by decide +kernel
  obtain ⟨g', _, _, h1, h2, _⟩ := plain_ok (by omega) hp
  rw [h] at h1
  cases h1
  have hs : (Graph.fromIstream (textOf fatSpec)).map Graph.size = .ok 4 := by decide +kernel
  rw [h] at hs
  exact ⟨h2, Except.ok.inj hs⟩

/-- After three inputs all four states of `fatSpec` can be live, so `run flut` with `--max-second-lut-depth 2` gives up for it; of the minimised
automaton two can be, and as many as it has can be live in `fatSpec`. -/
example : ∃ g m, Graph.fromIstream (textOf fatSpec) = .ok g ∧ g.WF ∧ g.minimized = .ok m ∧ ¬ LiveMax g 3 ∧ LiveMax m 2 ∧ LiveBits m 3 ∧
    ∃ Y : List Nat, Y.Nodup ∧ Y.length = 2 ∧ ∀ q ∈ Y, ∃ w : List Bool, w.length = 1 ∧ g.runWord g.initialState w = .ok q := by
  obtain ⟨g, hg⟩ : ∃ g, Graph.fromIstream (textOf fatSpec) = .ok g := by
    have hp : doRunPlain (textOf fatSpec) (some []) 5 = .ok ['0'] := by decide +kernel
    obtain ⟨g, _, _, h, _⟩ := plain_ok (by omega) hp
    exact ⟨g, h⟩
  obtain ⟨wf, h4⟩ := fatSpec_size g hg
  obtain ⟨m, hm, wm, _⟩ := Graph.minimized_good wf
  have hs : (Graph.fromIstream (textOf fatSpec) >>= Graph.minimized).map Graph.size = .ok 2 := by decide +kernel
  have run : ∀ w q, (Graph.fromIstream (textOf fatSpec) >>= fun g => g.runWord g.initialState w) = .ok q →
      g.runWord g.initialState w = .ok q := by
    intro w q h
    rwa [hg, Res.bind_ok] at h
  have runm : ∀ w q, (Graph.fromIstream (textOf fatSpec) >>= fun g => g.minimized >>= fun m => m.runWord m.initialState w) = .ok q →
      m.runWord m.initialState w = .ok q := by
    intro w q h
    rwa [hg, Res.bind_ok, hm, Res.bind_ok] at h
  rw [hg, Res.bind_ok, hm] at hs
  have h2 : m.size = 2 := Except.ok.inj hs
  refine ⟨g, m, hg, wf, hm, fun h => ?_, ?_, (C123_limits g g wf wf (fun _ => rfl) m hm 3).1 (liveBits_of_size wf (by omega)), ?_⟩
  · have := h 3 [0, 1, 2, 3] (by decide) (by
      intro q hq
      simp only [List.mem_cons, List.not_mem_nil, or_false] at hq
      rcases hq with rfl | rfl | rfl | rfl
      · exact ⟨[false, false, false], rfl, run _ _ (by decide +kernel)⟩
      · exact ⟨[false, false, true], rfl, run _ _ (by decide +kernel)⟩
      · exact ⟨[false, true, false], rfl, run _ _ (by decide +kernel)⟩
      · exact ⟨[true, false, true], rfl, run _ _ (by decide +kernel)⟩)
    simp at this
  · have := liveMax_of_size wm
    rwa [h2] at this
  · refine C123_fewest_live g g wf wf (fun _ => rfl) m hm 1 [0, 1] (by decide) ?_
    intro q hq
    simp only [List.mem_cons, List.not_mem_nil, or_false] at hq
    rcases hq with rfl | rfl
    · exact ⟨[false], rfl, runm _ _ (by decide +kernel)⟩
    · exact ⟨[true], rfl, runm _ _ (by decide +kernel)⟩

/-- With `fatSpec` minimised, the sequences print what `run plain` prints with `fatSpec` itself. -/
example : ∃ L : Lib 16 2 1, JustPrints L [] fatFiles ["spec2spec", "--minimized", "a.spec"] (textOf thinSpec) ∧
    AlwaysPrints L thinFiles [["genkey", "--out", "sk"], ["genbkey", "--key", "sk", "--out", "bk"],
      ["enc", "--ap", "5", "--key", "sk", "--in", "in", "--out", "ctxt"],
      ["run", "block", "--bkey", "bk", "--out", "res", "--spec", "a.spec", "--in", "ctxt", "--out-freq", "7", "--queue-size", "9"],
      ["dec", "--key", "sk", "--in", "res"]] ['1'] ["sk", "bk", "ctxt", "res"] ∧
    AlwaysPrints L thinFiles [["genkey", "--out", "sk"], ["genbkey", "--key", "sk", "--out", "bk"],
      ["enc", "--ap", "5", "--key", "sk", "--in", "in", "--out", "ctxt"],
      ["run", "flut", "--bkey", "bk", "--out", "res", "--spec", "a.spec", "--in", "ctxt", "--out-freq", "7",
        "--queue-size", "4", "--max-second-lut-depth", "3", "--bootstrapping-freq", "3"],
      ["dec", "--key", "sk", "--in", "res"]] ['1'] ["sk", "bk", "ctxt", "res"] := by
  obtain ⟨φ, hφ⟩ := exists_numbering 16
  have hL := toyLib_sound (n := 2) (l := 1) (by omega) (by omega) hφ
  have hp : RunHomfa (toyLib 16 2 1 φ) [] fatFiles ["run", "plain", "--ap", toString 5, "--spec", "a.spec", "--in", "in"]
      (.ok (fatFiles, ['1'])) := by
    refine (run_plain (specB := fatSpec) (inB := [0x1f#8, 0xe1#8, 0x10#8]) (by simp [Word]) (by simp [Word]) rfl rfl (by omega) (by omega)).2 ?_
    have : doRunPlain (textOf fatSpec) (some [0x1f#8, 0xe1#8, 0x10#8]) 5 = .ok ['1'] := by decide +kernel
    rw [this]
    rfl
  have thin : ∀ t, JustPrints (toyLib 16 2 1 φ) [] fatFiles ["spec2spec", "--minimized", "a.spec"] t → t = textOf thinSpec := by
    intro t h
    have hd : doSpec2spec (textOf fatSpec) true false false = .ok (textOf thinSpec) := by decide +kernel
    have := (h (.ok (fatFiles, textOf thinSpec))).1 ((run_spec2spec (flags := ["--minimized"]) (F := some "a.spec") (by simp) (by
      rintro f ⟨⟩; right; simp [Word])).2 (by
        rw [show fileOrStdin readSpec fatFiles [] (some "a.spec") = .ok (textOf fatSpec) from rfl, Res.bind_ok]
        exact (congrArg (fun x => x.bind fun o => Except.ok (fatFiles, o)) hd).symm))
    cases this
    rfl
  obtain ⟨t, h1, h2⟩ := C123_block hL (by omega) (by omega) (by decide) [] (by simp [Word]) (by simp [Word]) (specB := fatSpec)
    (inB := [0x1f#8, 0xe1#8, 0x10#8]) rfl rfl (by decide) (by decide) (by omega) (by omega) (freq := 7) (by omega) (by omega) (queue := 9)
    (by omega) (by omega) (W := 3) (fun g hg => liveBits_of_size (fatSpec_size g hg).1 (by rw [(fatSpec_size g hg).2]; decide)) (by omega)
    (by omega) (by simp only [toyNoise]; omega) hp
  obtain ⟨t', h3, h4⟩ := C123_flut hL (by omega) (by omega) (by decide) [] (by simp [Word]) (by simp [Word]) (specB := fatSpec)
    (inB := [0x1f#8, 0xe1#8, 0x10#8]) rfl rfl (by decide) (by omega) (by omega) (freq := 7) (by omega) (by omega) (queue := 4) (by omega)
    (by omega) (depth := 3) (by omega) (by omega) (by decide) (boot := 3) (by omega) (by omega)
    (W := 4) (fun g hg => by have := liveMax_of_size (fatSpec_size g hg).1; rwa [(fatSpec_size g hg).2] at this) (by omega)
    (by decide) hp
  cases thin t h1
  cases thin t' h3
  exact ⟨_, h1, h2 (by decide) thinFiles _ _ _ _ _ _ thinSpec exNames rfl rfl rfl, h4 (by decide) thinFiles _ _ _ _ _ _ thinSpec exNames rfl rfl rfl⟩

end Cli
end Homfa
