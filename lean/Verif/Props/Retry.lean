import Verif.Proof.Retry
import Verif.Props.Crash
import Verif.Props.Shell

/-!
# C68: commands that are interrupted and given again

Each command of the README's sequence is given again until it ends normally; the attempts before may have been stopped at any moment and
have left anything behind, and so may earlier attempts at the whole sequence.  Nothing but the right verdict is printed.
-/

namespace Homfa.Cli

variable {N n l : Nat} {L : Lib N n l} {δ : Noise} {Enc : L.Key → Gsw l N → Bool → Prop}

/-- **C62** for a run that is stopped at any moment -/
theorem C62_interrupted {fs fs' : Files} {out : List Char} (c : Cmd) {w : List String} (hw : w ∈ c.names) {items : List Item}
    (h : c.usage.Follows (fun f => (fs f).isSome) items) (hr : RunInterrupted L fs (w ++ line items) (fs', out)) :
    (∀ f, f ≠ opt items "--out" ∨ c.writesFile = false → fs' f = fs f) ∧ (c.writesFile = true → out = []) := by
  have e := C58_runs (fun f => (fs f).isSome) [] (by simp) c w hw items h
  rw [List.nil_append] at e
  generalize hp : (fs', out) = p at hr
  cases hr with
  | parsing => cases hp; exact ⟨fun _ _ => rfl, fun _ => rfl⟩
  | call h1 h2 =>
    subst hp
    rw [e] at h1
    cases h1
    obtain ⟨g1, g2⟩ := interrupted_frame h2
    exact ⟨fun f hf => g1 f (c.call_writes items f hf), fun hs => g2 (c.call_silent items hs)⟩

/-- **C68.** Each command is given until it ends normally: the verdict of `run plain` is printed, at least once, and nothing else.
Nothing is assumed about the files `K`, `B`, `C` and `R` before. -/
theorem C68_offline (hL : L.Sound δ Enc) (hN : 0 < N) (hl : 0 < l) (hbs : blockSize l N < 2 ^ 63) {S I K B C R : String}
    (hn : Names S I K B C R) (fs : Files) {specB inB : List Byte} (hs : fs S = some specB) (hi : fs I = some inB)
    (hlen : 8 * inB.length * blockSize l N < 2 ^ 63)
    {ap boot : Nat} (h31 : inB.length / recordBytes ap * ap < 2 ^ 31) (hap : 0 < ap) (hap64 : ap < 2 ^ 64) (hb : 0 < boot)
    (hb64 : boot < 2 ^ 64) (hbud : δ.br + boot * δ.cmux + δ.ks + δ.ms < 2 ^ 30) {fs' : Files} {out : List Char}
    (hplain : RunHomfa L [] fs ["run", "plain", "--ap", toString ap, "--spec", S, "--in", I] (.ok (fs', out)))
    {lines : List (List String)} {ends : List Bool}
    (hr : Retried [["genkey", "--out", K], ["genbkey", "--key", K, "--out", B],
      ["enc", "--ap", toString ap, "--key", K, "--in", I, "--out", C],
      ["run", "offline", "--bkey", B, "--out", R, "--spec", S, "--in", C, "--bootstrapping-freq", toString boot],
      ["dec", "--key", K, "--in", R]] lines ends)
    {fs1 : Files} {o : List Char} (h : CrashScript L fs lines ends (fs1, o)) :
    (∃ k, 0 < k ∧ o = (List.replicate k out).flatten) ∧ ∀ f, f ∉ [K, B, C, R] → fs1 f = fs f := by
  have wS := hn.words S (by simp)
  have hp := (run_plain wS (hn.words I (by simp)) hs hi hap hap64).1 hplain
  have hplain : doRunPlain (textOf specB) (some inB) ap = .ok out := by
    cases h : doRunPlain (textOf specB) (some inB) ap with
    | error e => rw [h] at hp; cases hp
    | ok o => rw [h] at hp; cases hp; rfl
  exact retry_pipeline hL hn fs hs hi hlen hap hap64 hplain (right_offline hL hN hl hbs hn.usable hap hb hb64 hbud h31 hplain)
    (main_offline (hn.words B (by simp)) (hn.words R (by simp)) wS (hn.words C (by simp)) hb hb64) (fun _ h => h) rfl hr h

/-- **C68.** After any attempts at these commands, in any order and with any end, the sequence can be started again from the beginning. -/
theorem C68_offline_restart (hL : L.Sound δ Enc) (hN : 0 < N) (hl : 0 < l) (hbs : blockSize l N < 2 ^ 63) {S I K B C R : String}
    (hn : Names S I K B C R) (fs : Files) {specB inB : List Byte} (hs : fs S = some specB) (hi : fs I = some inB)
    (hlen : 8 * inB.length * blockSize l N < 2 ^ 63)
    {ap boot : Nat} (h31 : inB.length / recordBytes ap * ap < 2 ^ 31) (hap : 0 < ap) (hap64 : ap < 2 ^ 64) (hb : 0 < boot)
    (hb64 : boot < 2 ^ 64) (hbud : δ.br + boot * δ.cmux + δ.ks + δ.ms < 2 ^ 30) {fs' : Files} {out : List Char}
    (hplain : RunHomfa L [] fs ["run", "plain", "--ap", toString ap, "--spec", S, "--in", I] (.ok (fs', out)))
    {lines : List (List String)}
    (hl1 : ∀ c ∈ lines, c ∈ [["genkey", "--out", K], ["genbkey", "--key", K, "--out", B],
      ["enc", "--ap", toString ap, "--key", K, "--in", I, "--out", C],
      ["run", "offline", "--bkey", B, "--out", R, "--spec", S, "--in", C, "--bootstrapping-freq", toString boot],
      ["dec", "--key", K, "--in", R]])
    {ends : List Bool} {fs1 : Files} {o : List Char} (h : CrashScript L fs lines ends (fs1, o)) :
    AlwaysPrints L fs1 [["genkey", "--out", K], ["genbkey", "--key", K, "--out", B],
      ["enc", "--ap", toString ap, "--key", K, "--in", I, "--out", C],
      ["run", "offline", "--bkey", B, "--out", R, "--spec", S, "--in", C, "--bootstrapping-freq", toString boot],
      ["dec", "--key", K, "--in", R]] out [K, B, C, R] := by
  have wS := hn.words S (by simp)
  have hfr := attempts_frame hn hap hap64 (main_offline (hn.words B (by simp)) (hn.words R (by simp)) wS (hn.words C (by simp)) hb hb64)
    (fun _ h => h) hl1 h
  have hdist := hn.distinct
  simp only [List.nodup_cons, List.mem_cons, List.not_mem_nil, or_false, not_or] at hdist
  have hs1 : fs1 S = some specB := (hfr S (by simp; tauto)).trans hs
  have hi1 : fs1 I = some inB := (hfr I (by simp; tauto)).trans hi
  have hp := (run_plain wS (hn.words I (by simp)) hs hi hap hap64).1 hplain
  have hplain1 : RunHomfa L [] fs1 ["run", "plain", "--ap", toString ap, "--spec", S, "--in", I] (.ok (fs1, out)) := by
    refine (run_plain wS (hn.words I (by simp)) hs1 hi1 hap hap64).2 ?_
    cases h : doRunPlain (textOf specB) (some inB) ap with
    | error e => rw [h] at hp; cases hp
    | ok o => rw [h] at hp; cases hp; rfl
  exact C61_offline hL hN hl hbs hn fs1 hs1 hi1 hlen h31 hap hap64 hb hb64 hbud hplain1

/-- **C68**, `run reverse` -/
theorem C68_reverse (hL : L.Sound δ Enc) (hN : 0 < N) (hl : 0 < l) (hbs : blockSize l N < 2 ^ 63) {S I K B C R : String}
    (hn : Names S I K B C R) (fs : Files) {specB inB : List Byte} (hs : fs S = some specB) (hi : fs I = some inB)
    (hlen : 8 * inB.length * blockSize l N < 2 ^ 63) {ap freq boot : Nat} (hap : 0 < ap) (hap64 : ap < 2 ^ 64) (hf : 0 < freq)
    (hf64 : freq < 2 ^ 64) (hb : 0 < boot) (hb64 : boot < 2 ^ 64) (hbud : δ.br + boot * δ.cmux + δ.ks + δ.ms < 2 ^ 30) {fs' : Files}
    {out : List Char} (hplain : RunHomfa L [] fs ["run", "plain", "--ap", toString ap, "--spec", S, "--in", I] (.ok (fs', out)))
    {lines : List (List String)} {ends : List Bool}
    (hr : Retried [["genkey", "--out", K], ["genbkey", "--key", K, "--out", B],
      ["enc", "--ap", toString ap, "--key", K, "--in", I, "--out", C],
      ["run", "reverse", "--bkey", B, "--out", R, "--spec", S, "--in", C, "--out-freq", toString freq,
        "--bootstrapping-freq", toString boot],
      ["dec", "--key", K, "--in", R]] lines ends)
    {fs1 : Files} {o : List Char} (h : CrashScript L fs lines ends (fs1, o)) :
    (∃ k, 0 < k ∧ o = (List.replicate k out).flatten) ∧ ∀ f, f ∉ [K, B, C, R] → fs1 f = fs f := by
  have wS := hn.words S (by simp)
  have hp := (run_plain wS (hn.words I (by simp)) hs hi hap hap64).1 hplain
  have hplain : doRunPlain (textOf specB) (some inB) ap = .ok out := by
    cases h : doRunPlain (textOf specB) (some inB) ap with
    | error e => rw [h] at hp; cases hp
    | ok o => rw [h] at hp; cases hp; rfl
  exact retry_pipeline hL hn fs hs hi hlen hap hap64 hplain (right_reverse hL hN hl hbs hn.usable hap hf hf64 hb hb64 hbud hplain)
    (main_reverse (hn.words B (by simp)) (hn.words R (by simp)) wS (hn.words C (by simp)) hf hf64 hb hb64) (fun _ h => by simpa [Call.Writes, eq_comm] using h) rfl hr h

/-- **C68**, `run reverse` -/
theorem C68_reverse_restart (hL : L.Sound δ Enc) (hN : 0 < N) (hl : 0 < l) (hbs : blockSize l N < 2 ^ 63) {S I K B C R : String}
    (hn : Names S I K B C R) (fs : Files) {specB inB : List Byte} (hs : fs S = some specB) (hi : fs I = some inB)
    (hlen : 8 * inB.length * blockSize l N < 2 ^ 63) {ap freq boot : Nat} (hap : 0 < ap) (hap64 : ap < 2 ^ 64) (hf : 0 < freq)
    (hf64 : freq < 2 ^ 64) (hb : 0 < boot) (hb64 : boot < 2 ^ 64) (hbud : δ.br + boot * δ.cmux + δ.ks + δ.ms < 2 ^ 30) {fs' : Files}
    {out : List Char} (hplain : RunHomfa L [] fs ["run", "plain", "--ap", toString ap, "--spec", S, "--in", I] (.ok (fs', out)))
    {lines : List (List String)}
    (hl1 : ∀ c ∈ lines, c ∈ [["genkey", "--out", K], ["genbkey", "--key", K, "--out", B],
      ["enc", "--ap", toString ap, "--key", K, "--in", I, "--out", C],
      ["run", "reverse", "--bkey", B, "--out", R, "--spec", S, "--in", C, "--out-freq", toString freq,
        "--bootstrapping-freq", toString boot],
      ["dec", "--key", K, "--in", R]])
    {ends : List Bool} {fs1 : Files} {o : List Char} (h : CrashScript L fs lines ends (fs1, o)) :
    AlwaysPrints L fs1 [["genkey", "--out", K], ["genbkey", "--key", K, "--out", B],
      ["enc", "--ap", toString ap, "--key", K, "--in", I, "--out", C],
      ["run", "reverse", "--bkey", B, "--out", R, "--spec", S, "--in", C, "--out-freq", toString freq,
        "--bootstrapping-freq", toString boot],
      ["dec", "--key", K, "--in", R]] out [K, B, C, R] := by
  have wS := hn.words S (by simp)
  have hfr := attempts_frame hn hap hap64 (main_reverse (hn.words B (by simp)) (hn.words R (by simp)) wS (hn.words C (by simp)) hf hf64 hb hb64)
    (fun _ h => by simpa [Call.Writes, eq_comm] using h) hl1 h
  have hdist := hn.distinct
  simp only [List.nodup_cons, List.mem_cons, List.not_mem_nil, or_false, not_or] at hdist
  have hs1 : fs1 S = some specB := (hfr S (by simp; tauto)).trans hs
  have hi1 : fs1 I = some inB := (hfr I (by simp; tauto)).trans hi
  have hp := (run_plain wS (hn.words I (by simp)) hs hi hap hap64).1 hplain
  have hplain1 : RunHomfa L [] fs1 ["run", "plain", "--ap", toString ap, "--spec", S, "--in", I] (.ok (fs1, out)) := by
    refine (run_plain wS (hn.words I (by simp)) hs1 hi1 hap hap64).2 ?_
    cases h : doRunPlain (textOf specB) (some inB) ap with
    | error e => rw [h] at hp; cases hp
    | ok o => rw [h] at hp; cases hp; rfl
  exact C61_reverse hL hN hl hbs hn fs1 hs1 hi1 hlen hap hap64 hf hf64 hb hb64 hbud hplain1

/-- **C68**, `run block` -/
theorem C68_block (hL : L.Sound δ Enc) (hN : 0 < N) (hl : 0 < l) (hbs : blockSize l N < 2 ^ 63) {S I K B C R : String}
    (hn : Names S I K B C R) (fs : Files) {specB inB : List Byte} (hs : fs S = some specB) (hi : fs I = some inB) (hne : inB ≠ [])
    (hlen : 8 * inB.length * blockSize l N < 2 ^ 63) {ap freq queue W : Nat} (hap : 0 < ap) (hap64 : ap < 2 ^ 64) (hf : 0 < freq)
    (hf64 : freq < 2 ^ 64) (hq : 0 < queue) (hqi : queue ≤ 2 ^ 31)
    (hW : ∀ g, Graph.fromIstream (textOf specB) = .ok g → LiveBits g W) (hWN : W < N) (hW31 : W < 31)
    (hbud : (queue + W) * δ.cmux + δ.cb < 2 ^ 29) {fs' : Files}
    {out : List Char} (hplain : RunHomfa L [] fs ["run", "plain", "--ap", toString ap, "--spec", S, "--in", I] (.ok (fs', out)))
    {lines : List (List String)} {ends : List Bool}
    (hr : Retried [["genkey", "--out", K], ["genbkey", "--key", K, "--out", B],
      ["enc", "--ap", toString ap, "--key", K, "--in", I, "--out", C],
      ["run", "block", "--bkey", B, "--out", R, "--spec", S, "--in", C, "--out-freq", toString freq, "--queue-size", toString queue],
      ["dec", "--key", K, "--in", R]] lines ends)
    {fs1 : Files} {o : List Char} (h : CrashScript L fs lines ends (fs1, o)) :
    (∃ k, 0 < k ∧ o = (List.replicate k out).flatten) ∧ ∀ f, f ∉ [K, B, C, R] → fs1 f = fs f := by
  have wS := hn.words S (by simp)
  have hp := (run_plain wS (hn.words I (by simp)) hs hi hap hap64).1 hplain
  have hplain : doRunPlain (textOf specB) (some inB) ap = .ok out := by
    cases h : doRunPlain (textOf specB) (some inB) ap with
    | error e => rw [h] at hp; cases hp
    | ok o => rw [h] at hp; cases hp; rfl
  exact retry_pipeline hL hn fs hs hi hlen hap hap64 hplain (right_block hL hN hl hbs hn.usable hne hap hf hf64 hq hqi hW hWN hW31 hbud hplain)
    (main_block (hn.words B (by simp)) (hn.words R (by simp)) wS (hn.words C (by simp)) hf hf64 hq (by omega)) (fun _ h => h) rfl hr h

/-- **C68**, `run block` -/
theorem C68_block_restart (hL : L.Sound δ Enc) (hN : 0 < N) (hl : 0 < l) (hbs : blockSize l N < 2 ^ 63) {S I K B C R : String}
    (hn : Names S I K B C R) (fs : Files) {specB inB : List Byte} (hs : fs S = some specB) (hi : fs I = some inB) (hne : inB ≠ [])
    (hlen : 8 * inB.length * blockSize l N < 2 ^ 63) {ap freq queue W : Nat} (hap : 0 < ap) (hap64 : ap < 2 ^ 64) (hf : 0 < freq)
    (hf64 : freq < 2 ^ 64) (hq : 0 < queue) (hqi : queue ≤ 2 ^ 31)
    (hW : ∀ g, Graph.fromIstream (textOf specB) = .ok g → LiveBits g W) (hWN : W < N) (hW31 : W < 31)
    (hbud : (queue + W) * δ.cmux + δ.cb < 2 ^ 29) {fs' : Files}
    {out : List Char} (hplain : RunHomfa L [] fs ["run", "plain", "--ap", toString ap, "--spec", S, "--in", I] (.ok (fs', out)))
    {lines : List (List String)}
    (hl1 : ∀ c ∈ lines, c ∈ [["genkey", "--out", K], ["genbkey", "--key", K, "--out", B],
      ["enc", "--ap", toString ap, "--key", K, "--in", I, "--out", C],
      ["run", "block", "--bkey", B, "--out", R, "--spec", S, "--in", C, "--out-freq", toString freq, "--queue-size", toString queue],
      ["dec", "--key", K, "--in", R]])
    {ends : List Bool} {fs1 : Files} {o : List Char} (h : CrashScript L fs lines ends (fs1, o)) :
    AlwaysPrints L fs1 [["genkey", "--out", K], ["genbkey", "--key", K, "--out", B],
      ["enc", "--ap", toString ap, "--key", K, "--in", I, "--out", C],
      ["run", "block", "--bkey", B, "--out", R, "--spec", S, "--in", C, "--out-freq", toString freq, "--queue-size", toString queue],
      ["dec", "--key", K, "--in", R]] out [K, B, C, R] := by
  have wS := hn.words S (by simp)
  have hfr := attempts_frame hn hap hap64 (main_block (hn.words B (by simp)) (hn.words R (by simp)) wS (hn.words C (by simp)) hf hf64 hq (by omega))
    (fun _ h => h) hl1 h
  have hdist := hn.distinct
  simp only [List.nodup_cons, List.mem_cons, List.not_mem_nil, or_false, not_or] at hdist
  have hs1 : fs1 S = some specB := (hfr S (by simp; tauto)).trans hs
  have hi1 : fs1 I = some inB := (hfr I (by simp; tauto)).trans hi
  have hp := (run_plain wS (hn.words I (by simp)) hs hi hap hap64).1 hplain
  have hplain1 : RunHomfa L [] fs1 ["run", "plain", "--ap", toString ap, "--spec", S, "--in", I] (.ok (fs1, out)) := by
    refine (run_plain wS (hn.words I (by simp)) hs1 hi1 hap hap64).2 ?_
    cases h : doRunPlain (textOf specB) (some inB) ap with
    | error e => rw [h] at hp; cases hp
    | ok o => rw [h] at hp; cases hp; rfl
  exact C61_block hL hN hl hbs hn fs1 hs1 hi1 hne hlen hap hap64 hf hf64 hq hqi hW hWN hW31 hbud hplain1

/-- **C68**, `run flut` -/
theorem C68_flut (hL : L.Sound δ Enc) (hN : 0 < N) (hl : 0 < l) (hbs : blockSize l N < 2 ^ 63) {S I K B C R : String}
    (hn : Names S I K B C R) (fs : Files) {specB inB : List Byte} (hs : fs S = some specB) (hi : fs I = some inB)
    (hlen : 8 * inB.length * blockSize l N < 2 ^ 63) {ap freq queue depth boot W : Nat} (hap : 0 < ap) (hap64 : ap < 2 ^ 64) (hf : 0 < freq)
    (hf64 : freq < 2 ^ 64) (hq : 0 < queue) (hq31 : queue < 31) (hd : 0 < depth) (hd31 : depth < 31) (hdN : 2 ^ depth ≤ N) (hb : 0 < boot)
    (hb64 : boot < 2 ^ 64) (hW : ∀ g, Graph.fromIstream (textOf specB) = .ok g → LiveMax g W) (hWd : W < 2 ^ depth)
    (hbud : W * 2 ^ (queue / 2) * flutErr δ W queue (boot - 1) + queue * δ.cmux + δ.ks + δ.ms < 2 ^ 30) {fs' : Files}
    {out : List Char} (hplain : RunHomfa L [] fs ["run", "plain", "--ap", toString ap, "--spec", S, "--in", I] (.ok (fs', out)))
    {lines : List (List String)} {ends : List Bool}
    (hr : Retried [["genkey", "--out", K], ["genbkey", "--key", K, "--out", B],
      ["enc", "--ap", toString ap, "--key", K, "--in", I, "--out", C],
      ["run", "flut", "--bkey", B, "--out", R, "--spec", S, "--in", C, "--out-freq", toString freq, "--queue-size", toString queue,
        "--max-second-lut-depth", toString depth, "--bootstrapping-freq", toString boot],
      ["dec", "--key", K, "--in", R]] lines ends)
    {fs1 : Files} {o : List Char} (h : CrashScript L fs lines ends (fs1, o)) :
    (∃ k, 0 < k ∧ o = (List.replicate k out).flatten) ∧ ∀ f, f ∉ [K, B, C, R] → fs1 f = fs f := by
  have wS := hn.words S (by simp)
  have hp := (run_plain wS (hn.words I (by simp)) hs hi hap hap64).1 hplain
  have hplain : doRunPlain (textOf specB) (some inB) ap = .ok out := by
    cases h : doRunPlain (textOf specB) (some inB) ap with
    | error e => rw [h] at hp; cases hp
    | ok o => rw [h] at hp; cases hp; rfl
  exact retry_pipeline hL hn fs hs hi hlen hap hap64 hplain (right_flut hL hN hl hbs hn.usable hap hf hf64 hq hq31 hd hd31 hdN hb hb64 hW hWd hbud hplain)
    (main_flut (hn.words B (by simp)) (hn.words R (by simp)) wS (hn.words C (by simp)) hf hf64 hq (by omega) hd (by omega) hb hb64) (fun _ h => by simpa [Call.Writes, eq_comm] using h) rfl hr h

/-- **C68**, `run flut` -/
theorem C68_flut_restart (hL : L.Sound δ Enc) (hN : 0 < N) (hl : 0 < l) (hbs : blockSize l N < 2 ^ 63) {S I K B C R : String}
    (hn : Names S I K B C R) (fs : Files) {specB inB : List Byte} (hs : fs S = some specB) (hi : fs I = some inB)
    (hlen : 8 * inB.length * blockSize l N < 2 ^ 63) {ap freq queue depth boot W : Nat} (hap : 0 < ap) (hap64 : ap < 2 ^ 64) (hf : 0 < freq)
    (hf64 : freq < 2 ^ 64) (hq : 0 < queue) (hq31 : queue < 31) (hd : 0 < depth) (hd31 : depth < 31) (hdN : 2 ^ depth ≤ N) (hb : 0 < boot)
    (hb64 : boot < 2 ^ 64) (hW : ∀ g, Graph.fromIstream (textOf specB) = .ok g → LiveMax g W) (hWd : W < 2 ^ depth)
    (hbud : W * 2 ^ (queue / 2) * flutErr δ W queue (boot - 1) + queue * δ.cmux + δ.ks + δ.ms < 2 ^ 30) {fs' : Files}
    {out : List Char} (hplain : RunHomfa L [] fs ["run", "plain", "--ap", toString ap, "--spec", S, "--in", I] (.ok (fs', out)))
    {lines : List (List String)}
    (hl1 : ∀ c ∈ lines, c ∈ [["genkey", "--out", K], ["genbkey", "--key", K, "--out", B],
      ["enc", "--ap", toString ap, "--key", K, "--in", I, "--out", C],
      ["run", "flut", "--bkey", B, "--out", R, "--spec", S, "--in", C, "--out-freq", toString freq, "--queue-size", toString queue,
        "--max-second-lut-depth", toString depth, "--bootstrapping-freq", toString boot],
      ["dec", "--key", K, "--in", R]])
    {ends : List Bool} {fs1 : Files} {o : List Char} (h : CrashScript L fs lines ends (fs1, o)) :
    AlwaysPrints L fs1 [["genkey", "--out", K], ["genbkey", "--key", K, "--out", B],
      ["enc", "--ap", toString ap, "--key", K, "--in", I, "--out", C],
      ["run", "flut", "--bkey", B, "--out", R, "--spec", S, "--in", C, "--out-freq", toString freq, "--queue-size", toString queue,
        "--max-second-lut-depth", toString depth, "--bootstrapping-freq", toString boot],
      ["dec", "--key", K, "--in", R]] out [K, B, C, R] := by
  have wS := hn.words S (by simp)
  have hfr := attempts_frame hn hap hap64 (main_flut (hn.words B (by simp)) (hn.words R (by simp)) wS (hn.words C (by simp)) hf hf64 hq (by omega) hd (by omega) hb hb64)
    (fun _ h => by simpa [Call.Writes, eq_comm] using h) hl1 h
  have hdist := hn.distinct
  simp only [List.nodup_cons, List.mem_cons, List.not_mem_nil, or_false, not_or] at hdist
  have hs1 : fs1 S = some specB := (hfr S (by simp; tauto)).trans hs
  have hi1 : fs1 I = some inB := (hfr I (by simp; tauto)).trans hi
  have hp := (run_plain wS (hn.words I (by simp)) hs hi hap hap64).1 hplain
  have hplain1 : RunHomfa L [] fs1 ["run", "plain", "--ap", toString ap, "--spec", S, "--in", I] (.ok (fs1, out)) := by
    refine (run_plain wS (hn.words I (by simp)) hs1 hi1 hap hap64).2 ?_
    cases h : doRunPlain (textOf specB) (some inB) ap with
    | error e => rw [h] at hp; cases hp
    | ok o => rw [h] at hp; cases hp; rfl
  exact C61_flut hL hN hl hbs hn fs1 hs1 hi1 hlen hap hap64 hf hf64 hq hq31 hd hd31 hdN hb hb64 hW hWd hbud hplain1

/-! ## The hypotheses are met -/

/-- With files left over from earlier runs: `enc` is stopped and given again, `dec` is given three times and stopped once.
Thereafter the sequence can be started again. -/
example : ∃ (L : Lib 16 2 1) (fs : Files), fs "res" = some [] ∧ fs "sk" = some [7#8] ∧
    let genkey := ["genkey", "--out", "sk"]
    let genbkey := ["genbkey", "--key", "sk", "--out", "bk"]
    let enc := ["enc", "--ap", "5", "--key", "sk", "--in", "in", "--out", "ctxt"]
    let run := ["run", "offline", "--bkey", "bk", "--out", "res", "--spec", "a.spec", "--in", "ctxt", "--bootstrapping-freq", "30"]
    let dec := ["dec", "--key", "sk", "--in", "res"]
    let lines := [genkey, genbkey, enc, enc, run, dec, dec, dec]
    let ends := [true, true, false, true, true, true, false, true]
    Retried [genkey, genbkey, enc, run, dec] lines ends ∧ (∃ fs' o, CrashScript L fs lines ends (fs', o)) ∧
    ∀ fs' o, CrashScript L fs lines ends (fs', o) → (∃ k, 0 < k ∧ o = List.replicate k '1') ∧
      AlwaysPrints L fs' [genkey, genbkey, enc, run, dec] ['1'] ["sk", "bk", "ctxt", "res"] := by
  obtain ⟨φ, hφ⟩ := exists_numbering 16
  have hL := toyLib_sound (n := 2) (l := 1) (by omega) (by omega) hφ
  let L := toyLib 16 2 1 φ
  let fs : Files := (exFiles.set "res" []).set "sk" [7#8]
  have hplain : doRunPlain (textOf (exSpec.map fun c => BitVec.ofNat 8 c.toNat)) (some [0x1f#8, 0xe1#8, 0x10#8]) 5 = .ok ['1'] := by
    decide +kernel
  have hp : RunHomfa L [] fs ["run", "plain", "--ap", toString 5, "--spec", "a.spec", "--in", "in"] (.ok (fs, ['1'])) := by
    refine (run_plain (specB := exSpec.map fun c => BitVec.ofNat 8 c.toNat) (inB := [0x1f#8, 0xe1#8, 0x10#8]) (by simp [Word])
      (by simp [Word]) rfl rfl (by omega) (by omega)).2 ?_
    rw [hplain]
    rfl
  have hret : Retried [["genkey", "--out", "sk"], ["genbkey", "--key", "sk", "--out", "bk"],
      ["enc", "--ap", toString 5, "--key", "sk", "--in", "in", "--out", "ctxt"],
      ["run", "offline", "--bkey", "bk", "--out", "res", "--spec", "a.spec", "--in", "ctxt", "--bootstrapping-freq", toString 30],
      ["dec", "--key", "sk", "--in", "res"]] _ [true, true, false, true, true, true, false, true] :=
    .done (.done (.again (.done (.done (.again (.again (.done .nil)))))))
  refine ⟨L, fs, rfl, rfl, hret, ?_, fun fs' o h => ?_⟩
  · obtain ⟨⟨r, hr⟩, hall⟩ := C61_offline hL (by omega) (by omega) (by decide) exNames fs
      (specB := exSpec.map fun c => BitVec.ofNat 8 c.toNat) (inB := [0x1f#8, 0xe1#8, 0x10#8]) rfl rfl (by decide) (by decide) (by omega) (by omega)
      (boot := 30) (by omega) (by omega) (by decide) hp
    obtain ⟨fs', rfl, -⟩ := hall r hr
    have hc := C66_uninterrupted hr rfl
    generalize hr2 : ((fs', ['1']) : Files × List Char) = r2 at hc
    cases hc with
    | next h1 hc => cases hc with
      | next h2 hc => cases hc with
        | next h3 hc => cases hc with
          | next h4 hc => cases hc with
            | next h5 hc =>
              cases hc
              have hdec : ∀ {fsa fsb : Files} {o : List Char}, Attempt L fsa ["dec", "--key", "sk", "--in", "res"] true (fsb, o) → fsb = fsa := by
                intro fsa fsb o h
                have := attempt_interrupted (main_dec (K := "sk") (R := "res") (by simp [Word]) (by simp [Word])) h
                funext f
                exact (interrupted_frame this).1 f id
              have e := hdec h5
              subst e
              exact ⟨_, _, .next h1 (.next h2 (.next (e := false) .parsing (.next h3 (.next h4 (.next h5 (.next (e := false) .parsing (.next h5 .nil)))))))⟩
  · obtain ⟨⟨k, h1, h2⟩, -⟩ := C68_offline hL (by omega) (by omega) (by decide) exNames fs
      (specB := exSpec.map fun c => BitVec.ofNat 8 c.toNat) (inB := [0x1f#8, 0xe1#8, 0x10#8]) rfl rfl (by decide) (by decide) (by omega) (by omega)
      (boot := 30) (by omega) (by omega) (by decide) hp hret h
    refine ⟨⟨k, h1, by simpa using h2⟩, ?_⟩
    refine C68_offline_restart hL (by omega) (by omega) (by decide) exNames fs
      (specB := exSpec.map fun c => BitVec.ofNat 8 c.toNat) (inB := [0x1f#8, 0xe1#8, 0x10#8]) rfl rfl (by decide) (by decide) (by omega) (by omega)
      (boot := 30) (by omega) (by omega) (by decide) hp (fun c hc => ?_) h
    rw [show toString 5 = "5" from rfl, show toString 30 = "30" from rfl]
    simp only [List.mem_cons, List.not_mem_nil, or_false] at hc ⊢
    rcases hc with h | h | h | h | h | h | h | h <;> simp only [h, true_or, or_true]

end Homfa.Cli
