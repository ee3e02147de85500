import Verif.Proof.Runs

/-!
# C61: the README's sequence of commands, on files

`homfa genkey`, `homfa genbkey`, `homfa enc`, one of the `homfa run` commands and `homfa dec`, given as command lines and run one after the
other on a file system.  The server's command reads the specification, the ciphertexts and the evaluation key, the client's read the
secret key.
-/

namespace Homfa.Cli

variable {N n l : Nat} {L : Lib N n l} {δ : Noise} {Enc : L.Key → Gsw l N → Bool → Prop}

/-- **C61.** If `homfa run plain` prints `out`, then so does the sequence genkey, genbkey, enc, `run offline`, dec. -/
theorem C61_offline (hL : L.Sound δ Enc) (hN : 0 < N) (hl : 0 < l) (hbs : blockSize l N < 2 ^ 63) {S I K B C R : String}
    (hn : Names S I K B C R) (fs : Files) {specB inB : List Byte} (hs : fs S = some specB) (hi : fs I = some inB)
    (hlen : 8 * inB.length * blockSize l N < 2 ^ 63)
    {ap boot : Nat} (h31 : inB.length / recordBytes ap * ap < 2 ^ 31) (hap : 0 < ap) (hap64 : ap < 2 ^ 64) (hb : 0 < boot)
    (hb64 : boot < 2 ^ 64) (hbud : δ.br + boot * δ.cmux + δ.ks + δ.ms < 2 ^ 30) {fs' : Files} {out : List Char}
    (hplain : RunHomfa L [] fs ["run", "plain", "--ap", toString ap, "--spec", S, "--in", I] (.ok (fs', out))) :
    AlwaysPrints L fs [["genkey", "--out", K], ["genbkey", "--key", K, "--out", B],
      ["enc", "--ap", toString ap, "--key", K, "--in", I, "--out", C],
      ["run", "offline", "--bkey", B, "--out", R, "--spec", S, "--in", C, "--bootstrapping-freq", toString boot],
      ["dec", "--key", K, "--in", R]] out [K, B, C, R] := by
  have wS := hn.words S (by simp)
  have hp := (run_plain wS (hn.words I (by simp)) hs hi hap hap64).1 hplain
  have hplain : doRunPlain (textOf specB) (some inB) ap = .ok out := by
    cases h : doRunPlain (textOf specB) (some inB) ap with
    | error e => rw [h] at hp; cases hp
    | ok o => rw [h] at hp; cases hp; rfl
  exact pipeline hL hn.usable fs hs hi hlen hap hap64 hplain _ (right_offline hL hN hl hbs hn.usable hap hb hb64 hbud h31 hplain)

/-- **C61**, `run reverse` -/
theorem C61_reverse (hL : L.Sound δ Enc) (hN : 0 < N) (hl : 0 < l) (hbs : blockSize l N < 2 ^ 63) {S I K B C R : String}
    (hn : Names S I K B C R) (fs : Files) {specB inB : List Byte} (hs : fs S = some specB) (hi : fs I = some inB)
    (hlen : 8 * inB.length * blockSize l N < 2 ^ 63) {ap freq boot : Nat} (hap : 0 < ap) (hap64 : ap < 2 ^ 64) (hf : 0 < freq)
    (hf64 : freq < 2 ^ 64) (hb : 0 < boot) (hb64 : boot < 2 ^ 64) (hbud : δ.br + boot * δ.cmux + δ.ks + δ.ms < 2 ^ 30) {fs' : Files}
    {out : List Char} (hplain : RunHomfa L [] fs ["run", "plain", "--ap", toString ap, "--spec", S, "--in", I] (.ok (fs', out))) :
    AlwaysPrints L fs [["genkey", "--out", K], ["genbkey", "--key", K, "--out", B],
      ["enc", "--ap", toString ap, "--key", K, "--in", I, "--out", C],
      ["run", "reverse", "--bkey", B, "--out", R, "--spec", S, "--in", C, "--out-freq", toString freq,
        "--bootstrapping-freq", toString boot],
      ["dec", "--key", K, "--in", R]] out [K, B, C, R] := by
  have wS := hn.words S (by simp)
  have hp := (run_plain wS (hn.words I (by simp)) hs hi hap hap64).1 hplain
  have hplain : doRunPlain (textOf specB) (some inB) ap = .ok out := by
    cases h : doRunPlain (textOf specB) (some inB) ap with
    | error e => rw [h] at hp; cases hp
    | ok o => rw [h] at hp; cases hp; rfl
  exact pipeline hL hn.usable fs hs hi hlen hap hap64 hplain _ (right_reverse hL hN hl hbs hn.usable hap hf hf64 hb hb64 hbud hplain)

/-- **C61**, `run block`: for an input that is not empty -/
theorem C61_block (hL : L.Sound δ Enc) (hN : 0 < N) (hl : 0 < l) (hbs : blockSize l N < 2 ^ 63) {S I K B C R : String}
    (hn : Names S I K B C R) (fs : Files) {specB inB : List Byte} (hs : fs S = some specB) (hi : fs I = some inB) (hne : inB ≠ [])
    (hlen : 8 * inB.length * blockSize l N < 2 ^ 63) {ap freq queue W : Nat} (hap : 0 < ap) (hap64 : ap < 2 ^ 64) (hf : 0 < freq)
    (hf64 : freq < 2 ^ 64) (hq : 0 < queue) (hqi : queue ≤ 2 ^ 31)
    (hW : ∀ g, Graph.fromIstream (textOf specB) = .ok g → LiveBits g W) (hWN : W < N) (hW31 : W < 31)
    (hbud : (queue + W) * δ.cmux + δ.cb < 2 ^ 29) {fs' : Files}
    {out : List Char} (hplain : RunHomfa L [] fs ["run", "plain", "--ap", toString ap, "--spec", S, "--in", I] (.ok (fs', out))) :
    AlwaysPrints L fs [["genkey", "--out", K], ["genbkey", "--key", K, "--out", B],
      ["enc", "--ap", toString ap, "--key", K, "--in", I, "--out", C],
      ["run", "block", "--bkey", B, "--out", R, "--spec", S, "--in", C, "--out-freq", toString freq, "--queue-size", toString queue],
      ["dec", "--key", K, "--in", R]] out [K, B, C, R] := by
  have wS := hn.words S (by simp)
  have hp := (run_plain wS (hn.words I (by simp)) hs hi hap hap64).1 hplain
  have hplain : doRunPlain (textOf specB) (some inB) ap = .ok out := by
    cases h : doRunPlain (textOf specB) (some inB) ap with
    | error e => rw [h] at hp; cases hp
    | ok o => rw [h] at hp; cases hp; rfl
  exact pipeline hL hn.usable fs hs hi hlen hap hap64 hplain _ (right_block hL hN hl hbs hn.usable hne hap hf hf64 hq hqi hW hWN hW31 hbud hplain)

/-- **C61**, `run flut` -/
theorem C61_flut (hL : L.Sound δ Enc) (hN : 0 < N) (hl : 0 < l) (hbs : blockSize l N < 2 ^ 63) {S I K B C R : String}
    (hn : Names S I K B C R) (fs : Files) {specB inB : List Byte} (hs : fs S = some specB) (hi : fs I = some inB)
    (hlen : 8 * inB.length * blockSize l N < 2 ^ 63) {ap freq queue depth boot W : Nat} (hap : 0 < ap) (hap64 : ap < 2 ^ 64) (hf : 0 < freq)
    (hf64 : freq < 2 ^ 64) (hq : 0 < queue) (hq31 : queue < 31) (hd : 0 < depth) (hd31 : depth < 31) (hdN : 2 ^ depth ≤ N) (hb : 0 < boot)
    (hb64 : boot < 2 ^ 64) (hW : ∀ g, Graph.fromIstream (textOf specB) = .ok g → LiveMax g W) (hWd : W < 2 ^ depth)
    (hbud : W * 2 ^ (queue / 2) * flutErr δ W queue (boot - 1) + queue * δ.cmux + δ.ks + δ.ms < 2 ^ 30) {fs' : Files}
    {out : List Char} (hplain : RunHomfa L [] fs ["run", "plain", "--ap", toString ap, "--spec", S, "--in", I] (.ok (fs', out))) :
    AlwaysPrints L fs [["genkey", "--out", K], ["genbkey", "--key", K, "--out", B],
      ["enc", "--ap", toString ap, "--key", K, "--in", I, "--out", C],
      ["run", "flut", "--bkey", B, "--out", R, "--spec", S, "--in", C, "--out-freq", toString freq, "--queue-size", toString queue,
        "--max-second-lut-depth", toString depth, "--bootstrapping-freq", toString boot],
      ["dec", "--key", K, "--in", R]] out [K, B, C, R] := by
  have wS := hn.words S (by simp)
  have hp := (run_plain wS (hn.words I (by simp)) hs hi hap hap64).1 hplain
  have hplain : doRunPlain (textOf specB) (some inB) ap = .ok out := by
    cases h : doRunPlain (textOf specB) (some inB) ap with
    | error e => rw [h] at hp; cases hp
    | ok o => rw [h] at hp; cases hp; rfl
  exact pipeline hL hn.usable fs hs hi hlen hap hap64 hplain _ (right_flut hL hN hl hbs hn.usable hap hf hf64 hq hq31 hd hd31 hdN hb hb64 hW hWd hbud hplain)

/-! ## The hypotheses are met -/

/-- The README's commands on `exFiles` print 1, for every `--bootstrapping-freq` up to 1000 and a queue size of 3. -/
example : ∃ L : Lib 16 2 1, (L.newKey 0 ≠ L.newKey 1) ∧ (∀ boot, 0 < boot → boot < 1000 →
    AlwaysPrints L exFiles [["genkey", "--out", "sk"], ["genbkey", "--key", "sk", "--out", "bk"],
      ["enc", "--ap", "5", "--key", "sk", "--in", "in", "--out", "ctxt"],
      ["run", "offline", "--bkey", "bk", "--out", "res", "--spec", "a.spec", "--in", "ctxt", "--bootstrapping-freq", toString boot],
      ["dec", "--key", "sk", "--in", "res"]] ['1'] ["sk", "bk", "ctxt", "res"] ∧
    AlwaysPrints L exFiles [["genkey", "--out", "sk"], ["genbkey", "--key", "sk", "--out", "bk"],
      ["enc", "--ap", "5", "--key", "sk", "--in", "in", "--out", "ctxt"],
      ["run", "reverse", "--bkey", "bk", "--out", "res", "--spec", "a.spec", "--in", "ctxt", "--out-freq", "7",
        "--bootstrapping-freq", toString boot],
      ["dec", "--key", "sk", "--in", "res"]] ['1'] ["sk", "bk", "ctxt", "res"]) := by
  obtain ⟨φ, hφ⟩ := exists_numbering 16
  have hL := toyLib_sound (n := 2) (l := 1) (by omega) (by omega) hφ
  have hp : RunHomfa (toyLib 16 2 1 φ) [] exFiles ["run", "plain", "--ap", toString 5, "--spec", "a.spec", "--in", "in"]
      (.ok (exFiles, ['1'])) := by
    refine (run_plain (specB := exSpec.map fun c => BitVec.ofNat 8 c.toNat) (inB := [0x1f#8, 0xe1#8, 0x10#8]) (by simp [Word]) (by simp [Word]) rfl rfl
      (by omega) (by omega)).2 ?_
    have : doRunPlain (textOf (exSpec.map fun c => BitVec.ofNat 8 c.toNat)) (some [0x1f#8, 0xe1#8, 0x10#8]) 5 = .ok ['1'] := by
      decide +kernel
    rw [this]
    rfl
  refine ⟨toyLib 16 2 1 φ, by simp [toyLib], fun boot h0 h1 => ⟨?_, ?_⟩⟩
  · exact C61_offline hL (by omega) (by omega) (by decide) exNames exFiles (specB := exSpec.map fun c => BitVec.ofNat 8 c.toNat)
      (inB := [0x1f#8, 0xe1#8, 0x10#8]) rfl rfl (by decide) (by decide) (by omega) (by omega) h0 (by omega) (by simp only [toyNoise]; omega) hp
  · exact C61_reverse hL (by omega) (by omega) (by decide) exNames exFiles (specB := exSpec.map fun c => BitVec.ofNat 8 c.toNat)
      (inB := [0x1f#8, 0xe1#8, 0x10#8]) rfl rfl (by decide) (by omega) (by omega) (freq := 7) (by omega) (by omega) h0 (by omega)
      (by simp only [toyNoise]; omega) hp

/-- The hypotheses of the theorems for `run block` and `run flut` are met as well. -/
example : ∃ L : Lib 16 2 1, (∀ queue, 0 < queue → queue < 1000 →
    AlwaysPrints L exFiles [["genkey", "--out", "sk"], ["genbkey", "--key", "sk", "--out", "bk"],
      ["enc", "--ap", "5", "--key", "sk", "--in", "in", "--out", "ctxt"],
      ["run", "block", "--bkey", "bk", "--out", "res", "--spec", "a.spec", "--in", "ctxt", "--out-freq", "7", "--queue-size", toString queue],
      ["dec", "--key", "sk", "--in", "res"]] ['1'] ["sk", "bk", "ctxt", "res"]) ∧
    (∀ freq, 0 < freq → freq < 1000 →
    AlwaysPrints L exFiles [["genkey", "--out", "sk"], ["genbkey", "--key", "sk", "--out", "bk"],
      ["enc", "--ap", "5", "--key", "sk", "--in", "in", "--out", "ctxt"],
      ["run", "flut", "--bkey", "bk", "--out", "res", "--spec", "a.spec", "--in", "ctxt", "--out-freq", toString freq,
        "--queue-size", "4", "--max-second-lut-depth", "3", "--bootstrapping-freq", "3"],
      ["dec", "--key", "sk", "--in", "res"]] ['1'] ["sk", "bk", "ctxt", "res"]) := by
  obtain ⟨φ, hφ⟩ := exists_numbering 16
  have hL := toyLib_sound (n := 2) (l := 1) (by omega) (by omega) hφ
  have hp : RunHomfa (toyLib 16 2 1 φ) [] exFiles ["run", "plain", "--ap", toString 5, "--spec", "a.spec", "--in", "in"]
      (.ok (exFiles, ['1'])) := by
    refine (run_plain (specB := exSpec.map fun c => BitVec.ofNat 8 c.toNat) (inB := [0x1f#8, 0xe1#8, 0x10#8]) (by simp [Word]) (by simp [Word])
      rfl rfl (by omega) (by omega)).2 ?_
    have : doRunPlain (textOf (exSpec.map fun c => BitVec.ofNat 8 c.toNat)) (some [0x1f#8, 0xe1#8, 0x10#8]) 5 = .ok ['1'] := by
      decide +kernel
    rw [this]
    rfl
  refine ⟨toyLib 16 2 1 φ, fun queue h0 h1 => ?_, fun freq h0 h1 => ?_⟩
  · exact C61_block hL (by omega) (by omega) (by decide) exNames exFiles (specB := exSpec.map fun c => BitVec.ofNat 8 c.toNat)
      (inB := [0x1f#8, 0xe1#8, 0x10#8]) rfl rfl (by decide) (by decide) (by omega) (by omega) (freq := 7) (by omega) (by omega) h0 (by omega)
      (W := 2) (fun g hg => liveBits_of_size (exSpec_size g hg).1 (by rw [(exSpec_size g hg).2]; decide)) (by omega) (by omega)
      (by simp only [toyNoise]; omega) hp
  · exact C61_flut hL (by omega) (by omega) (by decide) exNames exFiles (specB := exSpec.map fun c => BitVec.ofNat 8 c.toNat)
      (inB := [0x1f#8, 0xe1#8, 0x10#8]) rfl rfl (by decide) (by omega) (by omega) h0 (by omega) (queue := 4) (by omega)
      (by omega) (depth := 3) (by omega) (by omega) (by decide) (boot := 3) (by omega) (by omega)
      (W := 2) (fun g hg => by have := liveMax_of_size (exSpec_size g hg).1; rwa [(exSpec_size g hg).2] at this) (by omega)
      (by decide) hp

end Homfa.Cli
