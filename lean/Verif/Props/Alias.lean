import Verif.Proof.Alias
import Verif.Props.Frame
import Verif.Props.Shell

/-!
# C76: files given the same name

Whatever file `--out` names, a command writes the same content to it, so the result of a run may be written over any of its inputs; except that
`enc` loses an input it is to overwrite.
-/

namespace Homfa.Cli

variable {N n l : Nat} {L : Lib N n l} {δ : Noise} {Enc : L.Key → Gsw l N → Bool → Prop}

/-- **C76.** With another word for `--out`, even the name of one of its inputs, a command ends in the same way and writes the same content, now to
that file.  For `enc` the two outputs must not be its input. -/
theorem C76_any_name {stdin : List Char} {fs : Files} (c : Cmd) (hc : c.writesFile = true) {w : List String} (hw : w ∈ c.names) {items : List Item}
    (h : c.usage.Follows (fun f => (fs f).isSome) items) {R : String} (hR : Word R)
    (henc : c = .enc → opt items "--in" ≠ opt items "--out" ∧ opt items "--in" ≠ R) {r : Res (Files × List Char)}
    (hr : RunHomfa L stdin fs (w ++ line items) r) :
    ∃ q : Res (List Byte), r = q.map (fun b => (fs.set (opt items "--out") b, [])) ∧
      RunHomfa L stdin fs (w ++ line (redirect R items)) (q.map fun b => (fs.set R b, [])) := by
  have hx := (run_iff c hw h).1 hr
  have hi := fun r => (run_iff (L := L) (stdin := stdin) (r := r) c hw (c.redirect_follows h hR)).2
  have hout : ∃ v, .opt "--out" v ∈ items := by
    obtain ⟨k, hk⟩ : ∃ k, ("--out", k) ∈ c.usage.required := by
      cases c <;> first | exact absurd hc (by decide) | exact ⟨.text, by simp [Cmd.usage]⟩
    exact h.all _ _ hk
  obtain ⟨v, hv⟩ := hout
  have eo : opt (redirect R items) "--out" = R := by rw [opt, redirect_opt?_out R hv]; rfl
  have e? : ∀ m, m ≠ "--out" → opt? (redirect R items) m = opt? items m := fun m hm => redirect_opt?_other R items hm
  have e1 : ∀ m, m ≠ "--out" → opt (redirect R items) m = opt items m := fun m hm => by rw [opt, e? m hm, ← opt]
  have e2 : ∀ m, m ≠ "--out" → num (redirect R items) m = num items m := fun m hm => by rw [num, e1 m hm, ← num]
  cases c <;> first | exact absurd hc (by decide) | skip
  all_goals
    simp only [Cmd.call, eo, redirect_has, e1 "--key" (by decide), e1 "--in" (by decide), e1 "--spec" (by decide), e1 "--bkey" (by decide),
      e2 "--ap" (by decide), e2 "--bootstrapping-freq" (by decide), e2 "--out-freq" (by decide), e2 "--queue-size" (by decide),
      e2 "--max-second-lut-depth" (by decide), e? "--debug-secret-key" (by decide)] at hi hx
  · cases hx with
    | genkey q => exact ⟨.ok _, rfl, hi _ (.genkey q)⟩
  · cases hx with
    | genbkey q =>
      have hg := hi _ (.genbkey q)
      cases hk : readArchive L.loadKey (fs (opt items "--key")) with
      | error e => rw [hk] at hg; exact ⟨.error e, rfl, hg⟩
      | ok k => rw [hk] at hg; exact ⟨.ok _, rfl, hg⟩
  · obtain ⟨n1, n2⟩ := henc rfl
    cases hx with
    | enc rand =>
      have hg := hi _ (.enc rand)
      cases hk : readArchive L.loadKey (fs (opt items "--key")) with
      | error e => rw [hk] at hg; exact ⟨.error e, rfl, hg⟩
      | ok k =>
        rw [hk, Res.bind_ok] at hg
        rw [Res.bind_ok]
        dsimp only at hg ⊢
        rw [Files.set_other _ _ n2] at hg
        rw [Files.set_other _ _ n1]
        refine ⟨doEnc (L.client k) rand (fs (opt items "--in")) (num items "--ap"), ?_, ?_⟩
        · cases doEnc (L.client k) rand (fs (opt items "--in")) (num items "--ap") with
          | error e => rfl
          | ok b => rw [Res.bind_ok, Res.pure_eq, Files.set_set]; rfl
        · cases hd : doEnc (L.client k) rand (fs (opt items "--in")) (num items "--ap") with
          | error e => rw [hd] at hg; exact hg
          | ok b => rw [hd, Res.bind_ok, Res.pure_eq, Files.set_set] at hg; exact hg
  · cases hx with
    | runOffline hq =>
      have hg := hi _ (.runOffline hq)
      rename_i p
      cases p with
      | error e => exact ⟨.error e, rfl, hg⟩
      | ok p =>
      cases hb : readArchive L.loadBKey (fs (opt items "--bkey")) with
      | error e => rw [hb] at hg; exact ⟨.error e, rfl, hg⟩
      | ok b =>
      cases hs : readSpec (fs (opt items "--spec")) with
      | error e => rw [hb, hs] at hg; exact ⟨.error e, rfl, hg⟩
      | ok s =>
      rw [hb, hs] at hg
      refine ⟨(doRunOffline (L.server b) s (p.1.headD 0) p.2 (num items "--bootstrapping-freq") false).map L.saveRes, ?_, ?_⟩
      · show (doRunOffline (L.server b) s (p.1.headD 0) p.2 (num items "--bootstrapping-freq") false).bind _ = _
        cases doRunOffline (L.server b) s (p.1.headD 0) p.2 (num items "--bootstrapping-freq") false <;> rfl
      · have hg : RunHomfa L stdin fs _ ((doRunOffline (L.server b) s (p.1.headD 0) p.2 (num items "--bootstrapping-freq") false).bind _) := hg
        cases hd : doRunOffline (L.server b) s (p.1.headD 0) p.2 (num items "--bootstrapping-freq") false <;> rw [hd] at hg <;> exact hg
  · cases hx with
    | runReverse hq =>
      have hg := hi _ (.runReverse hq)
      rename_i p
      cases p with
      | error e => exact ⟨.error e, rfl, hg⟩
      | ok p =>
      cases hb : readArchive L.loadBKey (fs (opt items "--bkey")) with
      | error e => rw [hb] at hg; exact ⟨.error e, rfl, hg⟩
      | ok b =>
      cases hs : readSpec (fs (opt items "--spec")) with
      | error e => rw [hb, hs] at hg; exact ⟨.error e, rfl, hg⟩
      | ok s =>
      obtain ⟨q, hany⟩ := reverse_anywhere (L.server b) s (p.1.getLastD 0) p.2 (num items "--out-freq") (num items "--bootstrapping-freq")
        (has items "--spec-reversed") false
      rw [hb, hs] at hg
      have hg : RunHomfa L stdin fs _ ((doRunReverse (L.server b) s (p.1.getLastD 0) p.2 (some R) none (num items "--out-freq")
        (num items "--bootstrapping-freq") (has items "--spec-reversed") false).bind _) := hg
      rw [hany R] at hg
      refine ⟨q.map L.saveRes, ?_, ?_⟩
      · show (doRunReverse (L.server b) s (p.1.getLastD 0) p.2 (some (opt items "--out")) none (num items "--out-freq")
          (num items "--bootstrapping-freq") (has items "--spec-reversed") false).bind _ = _
        rw [hany]
        cases q <;> rfl
      · cases q <;> exact hg
  · cases hx with
    | runBlock hq =>
      have hg := hi _ (.runBlock hq)
      rename_i p
      cases p with
      | error e => exact ⟨.error e, rfl, hg⟩
      | ok p =>
      cases hs : readSpec (fs (opt items "--spec")) with
      | error e => rw [hs] at hg; exact ⟨.error e, rfl, hg⟩
      | ok s =>
      cases hb : readArchive L.loadBKey (fs (opt items "--bkey")) with
      | error e => rw [hs, hb] at hg; exact ⟨.error e, rfl, hg⟩
      | ok b =>
      rw [hs, hb] at hg
      refine ⟨(doRunBlock (L.server b) s p.2 (num items "--queue-size") false).map L.saveRes, ?_, ?_⟩
      · show (doRunBlock (L.server b) s p.2 (num items "--queue-size") false).bind _ = _
        cases doRunBlock (L.server b) s p.2 (num items "--queue-size") false <;> rfl
      · have hg : RunHomfa L stdin fs _ ((doRunBlock (L.server b) s p.2 (num items "--queue-size") false).bind _) := hg
        cases hd : doRunBlock (L.server b) s p.2 (num items "--queue-size") false <;> rw [hd] at hg <;> exact hg
  · cases hx with
    | runFlut hq =>
      have hg := hi _ (.runFlut hq)
      rename_i p
      cases p with
      | error e => exact ⟨.error e, rfl, hg⟩
      | ok p =>
      cases hs : readSpec (fs (opt items "--spec")) with
      | error e => rw [hs] at hg; exact ⟨.error e, rfl, hg⟩
      | ok s =>
      cases hb : readArchive L.loadBKey (fs (opt items "--bkey")) with
      | error e => rw [hs, hb] at hg; exact ⟨.error e, rfl, hg⟩
      | ok b =>
      cases hd : readDebugKey L fs (opt? items "--debug-secret-key") with
      | error e => rw [hs, hb, hd] at hg; exact ⟨.error e, rfl, hg⟩
      | ok d =>
      obtain ⟨q, hany⟩ := flut_anywhere (L.server b) s (p.1.getLastD 0) p.2 (num items "--out-freq") (num items "--queue-size")
        (num items "--bootstrapping-freq") (some (num items "--max-second-lut-depth")) false
      rw [hs, hb, hd] at hg
      have hg : RunHomfa L stdin fs _ ((doRunFlut (L.server b) s (p.1.getLastD 0) p.2 (some R) none (num items "--out-freq")
        (num items "--queue-size") (num items "--bootstrapping-freq") (some (num items "--max-second-lut-depth")) false).bind _) := hg
      rw [hany R] at hg
      refine ⟨q.map L.saveRes, ?_, ?_⟩
      · show (doRunFlut (L.server b) s (p.1.getLastD 0) p.2 (some (opt items "--out")) none (num items "--out-freq")
          (num items "--queue-size") (num items "--bootstrapping-freq") (some (num items "--max-second-lut-depth")) false).bind _ = _
        rw [hany]
        cases q <;> rfl
      · cases q <;> exact hg

/-- **C76.** The sequence genkey, genbkey, enc, `run offline`, dec prints what `run plain` prints also if the result is written over the spec, the
input, the evaluation key or the ciphertexts, or the spec is the input. -/
theorem C76_offline (hL : L.Sound δ Enc) (hN : 0 < N) (hl : 0 < l) (hbs : blockSize l N < 2 ^ 63) {S I K B C R : String}
    (hn : Usable S I K B C R) (fs : Files) {specB inB : List Byte} (hs : fs S = some specB) (hi : fs I = some inB)
    (hlen : 8 * inB.length * blockSize l N < 2 ^ 63)
    {ap boot : Nat} (h31 : inB.length / recordBytes ap * ap < 2 ^ 31) (hap : 0 < ap) (hap64 : ap < 2 ^ 64) (hb : 0 < boot)
    (hb64 : boot < 2 ^ 64) (hbud : δ.br + boot * δ.cmux + δ.ks + δ.ms < 2 ^ 30) {fs' : Files} {out : List Char}
    (hplain : RunHomfa L [] fs ["run", "plain", "--ap", toString ap, "--spec", S, "--in", I] (.ok (fs', out))) :
    AlwaysPrints L fs [["genkey", "--out", K], ["genbkey", "--key", K, "--out", B],
      ["enc", "--ap", toString ap, "--key", K, "--in", I, "--out", C],
      ["run", "offline", "--bkey", B, "--out", R, "--spec", S, "--in", C, "--bootstrapping-freq", toString boot],
      ["dec", "--key", K, "--in", R]] out [K, B, C, R] := by
  have wS := hn.words S (by simp)
  have hp := (run_plain wS (hn.words I (by simp)) hs hi hap hap64).1 hplain
  have hplain : doRunPlain (textOf specB) (some inB) ap = .ok out := by
    cases h : doRunPlain (textOf specB) (some inB) ap with
    | error e => rw [h] at hp; cases hp
    | ok o => rw [h] at hp; cases hp; rfl
  exact pipeline hL hn fs hs hi hlen hap hap64 hplain _ (right_offline hL hN hl hbs hn hap hb hb64 hbud h31 hplain)

/-- **C76**, `run reverse` -/
theorem C76_reverse (hL : L.Sound δ Enc) (hN : 0 < N) (hl : 0 < l) (hbs : blockSize l N < 2 ^ 63) {S I K B C R : String}
    (hn : Usable S I K B C R) (fs : Files) {specB inB : List Byte} (hs : fs S = some specB) (hi : fs I = some inB)
    (hlen : 8 * inB.length * blockSize l N < 2 ^ 63) {ap freq boot : Nat} (hap : 0 < ap) (hap64 : ap < 2 ^ 64) (hf : 0 < freq)
    (hf64 : freq < 2 ^ 64) (hb : 0 < boot) (hb64 : boot < 2 ^ 64) (hbud : δ.br + boot * δ.cmux + δ.ks + δ.ms < 2 ^ 30) {fs' : Files}
    {out : List Char} (hplain : RunHomfa L [] fs ["run", "plain", "--ap", toString ap, "--spec", S, "--in", I] (.ok (fs', out))) :
    AlwaysPrints L fs [["genkey", "--out", K], ["genbkey", "--key", K, "--out", B],
      ["enc", "--ap", toString ap, "--key", K, "--in", I, "--out", C],
      ["run", "reverse", "--bkey", B, "--out", R, "--spec", S, "--in", C, "--out-freq", toString freq,
        "--bootstrapping-freq", toString boot],
      ["dec", "--key", K, "--in", R]] out [K, B, C, R] := by
  have wS := hn.words S (by simp)
  have hp := (run_plain wS (hn.words I (by simp)) hs hi hap hap64).1 hplain
  have hplain : doRunPlain (textOf specB) (some inB) ap = .ok out := by
    cases h : doRunPlain (textOf specB) (some inB) ap with
    | error e => rw [h] at hp; cases hp
    | ok o => rw [h] at hp; cases hp; rfl
  exact pipeline hL hn fs hs hi hlen hap hap64 hplain _ (right_reverse hL hN hl hbs hn hap hf hf64 hb hb64 hbud hplain)

/-- **C76**, `run block`: for an input that is not empty -/
theorem C76_block (hL : L.Sound δ Enc) (hN : 0 < N) (hl : 0 < l) (hbs : blockSize l N < 2 ^ 63) {S I K B C R : String}
    (hn : Usable S I K B C R) (fs : Files) {specB inB : List Byte} (hs : fs S = some specB) (hi : fs I = some inB) (hne : inB ≠ [])
    (hlen : 8 * inB.length * blockSize l N < 2 ^ 63) {ap freq queue W : Nat} (hap : 0 < ap) (hap64 : ap < 2 ^ 64) (hf : 0 < freq)
    (hf64 : freq < 2 ^ 64) (hq : 0 < queue) (hqi : queue ≤ 2 ^ 31)
    (hW : ∀ g, Graph.fromIstream (textOf specB) = .ok g → LiveBits g W) (hWN : W < N) (hW31 : W < 31)
    (hbud : (queue + W) * δ.cmux + δ.cb < 2 ^ 29) {fs' : Files}
    {out : List Char} (hplain : RunHomfa L [] fs ["run", "plain", "--ap", toString ap, "--spec", S, "--in", I] (.ok (fs', out))) :
    AlwaysPrints L fs [["genkey", "--out", K], ["genbkey", "--key", K, "--out", B],
      ["enc", "--ap", toString ap, "--key", K, "--in", I, "--out", C],
      ["run", "block", "--bkey", B, "--out", R, "--spec", S, "--in", C, "--out-freq", toString freq, "--queue-size", toString queue],
      ["dec", "--key", K, "--in", R]] out [K, B, C, R] := by
  have wS := hn.words S (by simp)
  have hp := (run_plain wS (hn.words I (by simp)) hs hi hap hap64).1 hplain
  have hplain : doRunPlain (textOf specB) (some inB) ap = .ok out := by
    cases h : doRunPlain (textOf specB) (some inB) ap with
    | error e => rw [h] at hp; cases hp
    | ok o => rw [h] at hp; cases hp; rfl
  exact pipeline hL hn fs hs hi hlen hap hap64 hplain _ (right_block hL hN hl hbs hn hne hap hf hf64 hq hqi hW hWN hW31 hbud hplain)

/-- **C76**, `run flut` -/
theorem C76_flut (hL : L.Sound δ Enc) (hN : 0 < N) (hl : 0 < l) (hbs : blockSize l N < 2 ^ 63) {S I K B C R : String}
    (hn : Usable S I K B C R) (fs : Files) {specB inB : List Byte} (hs : fs S = some specB) (hi : fs I = some inB)
    (hlen : 8 * inB.length * blockSize l N < 2 ^ 63) {ap freq queue depth boot W : Nat} (hap : 0 < ap) (hap64 : ap < 2 ^ 64) (hf : 0 < freq)
    (hf64 : freq < 2 ^ 64) (hq : 0 < queue) (hq31 : queue < 31) (hd : 0 < depth) (hd31 : depth < 31) (hdN : 2 ^ depth ≤ N) (hb : 0 < boot)
    (hb64 : boot < 2 ^ 64) (hW : ∀ g, Graph.fromIstream (textOf specB) = .ok g → LiveMax g W) (hWd : W < 2 ^ depth)
    (hbud : W * 2 ^ (queue / 2) * flutErr δ W queue (boot - 1) + queue * δ.cmux + δ.ks + δ.ms < 2 ^ 30) {fs' : Files}
    {out : List Char} (hplain : RunHomfa L [] fs ["run", "plain", "--ap", toString ap, "--spec", S, "--in", I] (.ok (fs', out))) :
    AlwaysPrints L fs [["genkey", "--out", K], ["genbkey", "--key", K, "--out", B],
      ["enc", "--ap", toString ap, "--key", K, "--in", I, "--out", C],
      ["run", "flut", "--bkey", B, "--out", R, "--spec", S, "--in", C, "--out-freq", toString freq, "--queue-size", toString queue,
        "--max-second-lut-depth", toString depth, "--bootstrapping-freq", toString boot],
      ["dec", "--key", K, "--in", R]] out [K, B, C, R] := by
  have wS := hn.words S (by simp)
  have hp := (run_plain wS (hn.words I (by simp)) hs hi hap hap64).1 hplain
  have hplain : doRunPlain (textOf specB) (some inB) ap = .ok out := by
    cases h : doRunPlain (textOf specB) (some inB) ap with
    | error e => rw [h] at hp; cases hp
    | ok o => rw [h] at hp; cases hp; rfl
  exact pipeline hL hn fs hs hi hlen hap hap64 hplain _ (right_flut hL hN hl hbs hn hap hf hf64 hq hq31 hd hd31 hdN hb hb64 hW hWd hbud hplain)

/-! ### Ciphertexts written over the input

`Usable S S K B I R` says of `I` what it says of the file of ciphertexts: it is not the spec, not a key. -/

/-- **C76.** If `enc` is to write the ciphertexts over its input, the sequence still ends normally, but it prints the verdict on the EMPTY input, whatever
the input was. -/
theorem C76_over_input_offline (hL : L.Sound δ Enc) (hN : 0 < N) (hl : 0 < l) (hbs : blockSize l N < 2 ^ 63) {S I K B R : String}
    (hn : Usable S S K B I R) (fs : Files) {specB inB : List Byte} (hs : fs S = some specB) (hi : fs I = some inB)
    {ap boot : Nat} (hap : 0 < ap) (hap64 : ap < 2 ^ 64) (hb : 0 < boot) (hb64 : boot < 2 ^ 64)
    (hbud : δ.br + boot * δ.cmux + δ.ks + δ.ms < 2 ^ 30)
    {fs' : Files} {out : List Char}
    (hplain : RunHomfa L [] (fs.set I []) ["run", "plain", "--ap", toString ap, "--spec", S, "--in", I] (.ok (fs', out))) :
    AlwaysPrints L fs [["genkey", "--out", K], ["genbkey", "--key", K, "--out", B],
      ["enc", "--ap", toString ap, "--key", K, "--in", I, "--out", I],
      ["run", "offline", "--bkey", B, "--out", R, "--spec", S, "--in", I, "--bootstrapping-freq", toString boot],
      ["dec", "--key", K, "--in", R]] out [K, B, I, R] := by
  exact over_input hL hn fs hs hi hap hap64 hplain fun h => right_offline hL hN hl hbs hn hap hb hb64 hbud (few_bits (by decide)) h

/-- **C76**, `run reverse` -/
theorem C76_over_input_reverse (hL : L.Sound δ Enc) (hN : 0 < N) (hl : 0 < l) (hbs : blockSize l N < 2 ^ 63) {S I K B R : String}
    (hn : Usable S S K B I R) (fs : Files) {specB inB : List Byte} (hs : fs S = some specB) (hi : fs I = some inB)
    {ap freq boot : Nat} (hap : 0 < ap) (hap64 : ap < 2 ^ 64) (hf : 0 < freq) (hf64 : freq < 2 ^ 64) (hb : 0 < boot)
    (hb64 : boot < 2 ^ 64) (hbud : δ.br + boot * δ.cmux + δ.ks + δ.ms < 2 ^ 30)
    {fs' : Files} {out : List Char}
    (hplain : RunHomfa L [] (fs.set I []) ["run", "plain", "--ap", toString ap, "--spec", S, "--in", I] (.ok (fs', out))) :
    AlwaysPrints L fs [["genkey", "--out", K], ["genbkey", "--key", K, "--out", B],
      ["enc", "--ap", toString ap, "--key", K, "--in", I, "--out", I],
      ["run", "reverse", "--bkey", B, "--out", R, "--spec", S, "--in", I, "--out-freq", toString freq,
        "--bootstrapping-freq", toString boot],
      ["dec", "--key", K, "--in", R]] out [K, B, I, R] := by
  exact over_input hL hn fs hs hi hap hap64 hplain fun h => right_reverse hL hN hl hbs hn hap hf hf64 hb hb64 hbud h

/-- **C76**, `run flut` -/
theorem C76_over_input_flut (hL : L.Sound δ Enc) (hN : 0 < N) (hl : 0 < l) (hbs : blockSize l N < 2 ^ 63) {S I K B R : String}
    (hn : Usable S S K B I R) (fs : Files) {specB inB : List Byte} (hs : fs S = some specB) (hi : fs I = some inB)
    {ap freq queue depth boot W : Nat} (hap : 0 < ap) (hap64 : ap < 2 ^ 64) (hf : 0 < freq) (hf64 : freq < 2 ^ 64) (hq : 0 < queue)
    (hq31 : queue < 31) (hd : 0 < depth) (hd31 : depth < 31) (hdN : 2 ^ depth ≤ N) (hb : 0 < boot) (hb64 : boot < 2 ^ 64)
    (hW : ∀ g, Graph.fromIstream (textOf specB) = .ok g → LiveMax g W) (hWd : W < 2 ^ depth)
    (hbud : W * 2 ^ (queue / 2) * flutErr δ W queue (boot - 1) + queue * δ.cmux + δ.ks + δ.ms < 2 ^ 30)
    {fs' : Files} {out : List Char}
    (hplain : RunHomfa L [] (fs.set I []) ["run", "plain", "--ap", toString ap, "--spec", S, "--in", I] (.ok (fs', out))) :
    AlwaysPrints L fs [["genkey", "--out", K], ["genbkey", "--key", K, "--out", B],
      ["enc", "--ap", toString ap, "--key", K, "--in", I, "--out", I],
      ["run", "flut", "--bkey", B, "--out", R, "--spec", S, "--in", I, "--out-freq", toString freq, "--queue-size", toString queue,
        "--max-second-lut-depth", toString depth, "--bootstrapping-freq", toString boot],
      ["dec", "--key", K, "--in", R]] out [K, B, I, R] := by
  exact over_input hL hn fs hs hi hap hap64 hplain fun h => right_flut hL hN hl hbs hn hap hf hf64 hq hq31 hd hd31 hdN hb hb64 hW hWd hbud h

/-! ## The hypotheses are met -/

/-- names under which the result replaces the ciphertexts -/
theorem exShared : Usable "a.spec" "in" "sk" "bk" "ctxt" "ctxt" := by
  refine ⟨?_, by decide, by decide, by decide, by decide⟩
  simp [Word]

/-- names under which the result replaces the spec and the ciphertexts replace the input -/
theorem exOver : Usable "a.spec" "a.spec" "sk" "bk" "in" "a.spec" := by
  refine ⟨?_, by decide, by decide, by decide, by decide⟩
  simp [Word]

/-- `exFiles` with an input the spec rejects -/
def exRejected : Files := exFiles.set "in" [0x0f#8]

/-- On an input that is rejected the commands print 0 if the result replaces the ciphertexts, and 1, the verdict on the empty input, if the ciphertexts replace the
input. -/
example : ∃ L : Lib 16 2 1,
    AlwaysPrints L exRejected [["genkey", "--out", "sk"], ["genbkey", "--key", "sk", "--out", "bk"],
      ["enc", "--ap", "5", "--key", "sk", "--in", "in", "--out", "ctxt"],
      ["run", "reverse", "--bkey", "bk", "--out", "ctxt", "--spec", "a.spec", "--in", "ctxt", "--out-freq", "7", "--bootstrapping-freq", "9"],
      ["dec", "--key", "sk", "--in", "ctxt"]] ['0'] ["sk", "bk", "ctxt", "ctxt"] ∧
    AlwaysPrints L exRejected [["genkey", "--out", "sk"], ["genbkey", "--key", "sk", "--out", "bk"],
      ["enc", "--ap", "5", "--key", "sk", "--in", "in", "--out", "in"],
      ["run", "reverse", "--bkey", "bk", "--out", "a.spec", "--spec", "a.spec", "--in", "in", "--out-freq", "7", "--bootstrapping-freq", "9"],
      ["dec", "--key", "sk", "--in", "a.spec"]] ['1'] ["sk", "bk", "in", "a.spec"] := by
  obtain ⟨φ, hφ⟩ := exists_numbering 16
  have hL := toyLib_sound (n := 2) (l := 1) (by omega) (by omega) hφ
  have hp : RunHomfa (toyLib 16 2 1 φ) [] exRejected ["run", "plain", "--ap", toString 5, "--spec", "a.spec", "--in", "in"]
      (.ok (exRejected, ['0'])) := by
    refine (run_plain (specB := exSpec.map fun c => BitVec.ofNat 8 c.toNat) (inB := [0x0f#8]) (by simp [Word]) (by simp [Word]) rfl rfl
      (by omega) (by omega)).2 ?_
    have : doRunPlain (textOf (exSpec.map fun c => BitVec.ofNat 8 c.toNat)) (some [0x0f#8]) 5 = .ok ['0'] := by
      decide +kernel
    rw [this]
    rfl
  have hp0 : RunHomfa (toyLib 16 2 1 φ) [] (exRejected.set "in" []) ["run", "plain", "--ap", toString 5, "--spec", "a.spec", "--in", "in"]
      (.ok (exRejected.set "in" [], ['1'])) := by
    refine (run_plain (specB := exSpec.map fun c => BitVec.ofNat 8 c.toNat) (inB := []) (by simp [Word]) (by simp [Word]) rfl rfl
      (by omega) (by omega)).2 ?_
    have : doRunPlain (textOf (exSpec.map fun c => BitVec.ofNat 8 c.toNat)) (some []) 5 = .ok ['1'] := by
      decide +kernel
    rw [this]
    rfl
  refine ⟨toyLib 16 2 1 φ, ?_, ?_⟩
  · exact C76_reverse hL (by omega) (by omega) (by decide) exShared exRejected (specB := exSpec.map fun c => BitVec.ofNat 8 c.toNat)
      (inB := [0x0f#8]) rfl rfl (by decide) (ap := 5) (by omega) (by omega) (freq := 7) (by omega) (by omega)
      (boot := 9) (by omega) (by omega) (by simp only [toyNoise]; omega) hp
  · exact C76_over_input_reverse hL (by omega) (by omega) (by decide) exOver exRejected (specB := exSpec.map fun c => BitVec.ofNat 8 c.toNat)
      (inB := [0x0f#8]) rfl rfl (ap := 5) (by omega) (by omega) (freq := 7) (by omega) (by omega)
      (boot := 9) (by omega) (by omega) (by simp only [toyNoise]; omega) hp0

/-- `genbkey` given its own key file for the output replaces it, with the evaluation key it would write elsewhere. -/
example (L : Lib N n l) (fs : Files) (k : List Byte) (h : fs "sk" = some k) (r : Res (Files × List Char))
    (hr : RunHomfa L [] fs ["genbkey", "--key", "sk", "--out", "bk"] r) :
    ∃ q : Res (List Byte), r = q.map (fun b => (fs.set "bk" b, [])) ∧
      RunHomfa L [] fs ["genbkey", "--key", "sk", "--out", "sk"] (q.map fun b => (fs.set "sk" b, [])) := by
  have hf : Cmd.genbkey.usage.Follows (fun f => (fs f).isSome) [.opt "--key" "sk", .opt "--out" "bk"] := by
    refine follows_opts (ex := fun f => (fs f).isSome) (vals := ["sk", "bk"]) rfl (by decide) rfl fun p hp => ?_
    simp only [Cmd.usage, List.zip_cons_cons, List.zip_nil_right, List.mem_cons, List.not_mem_nil, or_false] at hp
    rcases hp with rfl | rfl
    · exact Word.file (by simp [Word]) h
    · exact Word.text (by simp [Word]) _
  exact C76_any_name .genbkey rfl (w := ["genbkey"]) (by simp [Cmd.names]) hf (R := "sk") (by simp [Word]) (by simp) hr

end Homfa.Cli
