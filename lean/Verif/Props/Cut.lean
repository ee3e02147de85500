import Verif.Proof.Cut
import Verif.Props.Text
import Verif.Props.Sources
import Verif.Proof.Temporal

/-!
# C75: specifications whose end is missing

A spec file that was not written or copied to its end.  The reader skips lines it does not understand and has no notion of a complete file.  Still
most cuts are noticed, since the remaining lines name states that are missing.
-/

namespace Homfa
open Spec

/-- the first rows of a graph, the initial one among them -/
theorem read_rows {g : Graph} (hg : g.WF) {k : Nat} (hi : g.init < k) {t : List Char} {lines : List (List Char)} (htl : TextLines t lines)
    (hr : SpecRows 0 lines ((List.range k).map g.dumpRow)) :
    Graph.fromIstream t = .error .outOfRange ∨ ∃ h, Graph.fromIstream t = .ok h ∧ h.WF ∧ ∀ w, h.accepts w = g.accepts w := by
  have hne : (List.range k).map g.dumpRow ≠ [] := by
    rw [ne_eq, List.map_eq_nil_iff, List.range_eq_nil]; omega
  by_cases hcl : ∀ q < k, ∀ b, g.nx q b < k
  · rcases C16_spec_meaning t lines _ htl hr hne with ⟨-, h, h1, h2, h3⟩ | ⟨h, -⟩
    · refine .inr ⟨h, h1, h2, fun w => ?_⟩
      obtain ⟨b, h4, h5⟩ := h3 w
      rw [Graph.rows_language hi hcl] at h5
      rw [h4, hg.accepts_eq]
      congr 1
      cases b <;> cases h : g.dfa.accepts w <;> simp_all
    · refine absurd h (not_refersOutside hne fun r hr q hq => ?_)
      obtain ⟨p, hp, rfl⟩ := List.mem_map.1 hr
      rw [List.length_map, List.length_range]
      simp only [Graph.dumpRow, List.cons_append, List.nil_append, List.mem_cons, List.not_mem_nil, or_false] at hq
      rcases hq with rfl | rfl
      · exact hcl p (List.mem_range.1 hp) false
      · exact hcl p (List.mem_range.1 hp) true
  · rcases C16_spec_meaning t lines _ htl hr hne with ⟨h, -⟩ | ⟨-, h⟩
    · exact absurd (Graph.rows_outside hi hcl) h
    · exact .inl h

/-- **C75.** A beginning of the text the program prints for a graph is read as a graph with the same language, or refused, unless it was cut
inside the last number of a line or before the end of the line of the initial state. -/
theorem C75_cut_spec (g : Graph) (hg : g.WF) (hsz : g.size ≤ 2 ^ 31) {text t : List Char} (hd : g.dump = .ok text) (ht : t <+: text) :
    CutInLastNumber text t ∨ CutBeforeInitial text t ∨ Graph.fromIstream t = .error .outOfRange ∨
      ∃ h, Graph.fromIstream t = .ok h ∧ h.WF ∧ ∀ w, h.accepts w = g.accepts w := by
  rcases Graph.cut_rows hg hsz hd ht with ⟨h, -⟩ | ⟨k, lines, hk, hi | hi, htl, hr⟩
  · exact .inl h
  · exact .inr (.inr (read_rows hg hi htl hr))
  · exact .inr (.inl hi)

/-- **C75**, initial state 0 (printed first): if not even its line is complete, no run on the graph that is read succeeds.  With at most ten states
every cut that changes the language is noticed. -/
theorem C75_cut_spec_first (g : Graph) (hg : g.WF) (hsz : g.size ≤ 2 ^ 31) (h0 : g.initialState = 0) {text t : List Char} (hd : g.dump = .ok text)
    (ht : t <+: text) :
    (CutInLastNumber text t ∧ 10 < g.size) ∨ (∃ h, Graph.fromIstream t = .ok h ∧ h.size = 0 ∧ ∀ w, h.accepts w = .error .outOfRange) ∨
      Graph.fromIstream t = .error .outOfRange ∨ ∃ h, Graph.fromIstream t = .ok h ∧ h.WF ∧ ∀ w, h.accepts w = g.accepts w := by
  rcases Graph.cut_rows hg hsz hd ht with h | ⟨k, lines, hk, hi, htl, hr⟩
  · exact .inl h
  · rcases Nat.eq_zero_or_pos k with rfl | hpos
    · right; left
      refine ⟨Graph.built 0 [] [], ?_, rfl, fun w => ?_⟩
      · rw [fromIstream_rows htl hr]; rfl
      · cases w with
        | nil => decide
        | cons b w => cases b <;> rfl
    · exact .inr (.inr (read_rows hg (show g.initialState < k by omega) htl hr))

/-- the same graph language, the same plaintext runs -/
theorem plain_congr {t text : List Char} {g h : Graph} (hg : Graph.fromIstream text = .ok g) (hh : Graph.fromIstream t = .ok h)
    (he : ∀ w, h.accepts w = g.accepts w) {input : Option (List Byte)} {ap : Nat} (hap : 0 < ap) {o : List Char}
    (ho : doRunPlain text input ap = .ok o) : doRunPlain t input ap = .ok o := by
  obtain ⟨g', rs, b, h1, -, rfl, h3, h4, rfl⟩ := plain_ok hap ho
  rw [hg] at h1
  cases h1
  rw [← he] at h4
  unfold Graph.accepts Graph.runWord at h4
  obtain ⟨q, h5, h6⟩ := Res.bind_eq_ok.1 h4
  unfold doRunPlain
  rw [hh, Res.bind_ok, C19_records ap hap rs h3, h5, Res.bind_ok, h6, Res.bind_ok]
  rfl

/-- **C75**, converters: what `ltl2spec` or `att2spec` print begins with the line of the initial state.  So with a beginning of it `run plain` always fails, or
does what it does with all of it, unless the cut is inside the last number of a line (and there are more than ten states). -/
theorem C75_converters {text : List Char} (h : (∃ aut n allFinal, doLtl2spec aut n allFinal = .ok text) ∨ ∃ att, doAtt2spec att = .ok text)
    (hlen : text.length ≤ 2 ^ 31) {t : List Char} (ht : t <+: text) :
    CutInLastNumber text t ∨ (∀ input ap, 0 < ap → ∀ o, doRunPlain t input ap ≠ .ok o) ∨
      ∀ input ap, 0 < ap → ∀ o, doRunPlain t input ap = .ok o ↔ doRunPlain text input ap = .ok o := by
  have key : ∃ g : Graph, g.WF ∧ g.init = 0 ∧ g.dump = .ok text := by
    rcases h with ⟨aut, n, allFinal, h⟩ | ⟨att, h⟩
    · obtain ⟨g, h1, h2⟩ := Res.bind_eq_ok.1 h
      obtain ⟨p, hp, h1⟩ := Res.bind_eq_ok.1 h1
      obtain ⟨d, -, hp⟩ := Res.bind_eq_ok.1 hp
      cases hp
      obtain ⟨h3, -, h4, -⟩ := FromNfa.fromNfa_good (by simp) h1
      exact ⟨g, h3, h4, h2⟩
    · obtain ⟨g, h1, h2⟩ := Res.bind_eq_ok.1 h
      obtain ⟨p, hp, h1⟩ := Res.bind_eq_ok.1 h1
      obtain ⟨h3, -, h4, -⟩ := FromNfa.fromNfa_good (by simp) h1
      exact ⟨g, h3, h4, h2⟩
  obtain ⟨g, hg, h0, hd⟩ := key
  have hsz : g.size ≤ 2 ^ 31 := le_trans (Graph.length_dump hg hd) hlen
  rcases C75_cut_spec_first g hg hsz h0 hd ht with h | ⟨h, h1, -, h2⟩ | h | ⟨h, h1, -, h2⟩
  · exact .inl h.1
  · refine .inr (.inl fun input ap hap o ho => ?_)
    obtain ⟨g', rs, b, e1, -, -, -, e4, -⟩ := plain_ok hap ho
    rw [h1] at e1
    cases e1
    rw [h2] at e4
    cases e4
  · refine .inr (.inl fun input ap hap o ho => ?_)
    obtain ⟨g', rs, b, e1, -⟩ := plain_ok hap ho
    rw [h] at e1
    cases e1
  · obtain ⟨text', e1, e2⟩ := C14_dump_parse g hg hsz
    rw [hd] at e1
    cases e1
    refine .inr (.inr fun input ap hap o => ⟨plain_congr h1 e2 (fun w => (h2 w).symm) hap, plain_congr e2 h1 h2 hap⟩)

end Homfa

namespace Homfa.Cli
open Spec

variable {N n l : Nat} {L : Lib N n l} {δ : Noise} {Enc : L.Key → Gsw l N → Bool → Prop}

/-- What a cut-off spec can do to plaintext runs: it is refused, or makes no difference, or it was cut in one of the two places. -/
theorem cut_plain {specB fullB : List Byte} (hfull : ∃ g : Graph, g.WF ∧ g.size ≤ 2 ^ 31 ∧ g.dump = .ok (textOf fullB))
    (hcut : specB <+: fullB) {input : Option (List Byte)} {ap : Nat} (hap : 0 < ap) {o : List Char}
    (ho : doRunPlain (textOf fullB) input ap = .ok o) :
    CutInLastNumber (textOf fullB) (textOf specB) ∨ CutBeforeInitial (textOf fullB) (textOf specB) ∨
      (∀ g, Graph.fromIstream (textOf specB) ≠ .ok g) ∨ doRunPlain (textOf specB) input ap = .ok o := by
  obtain ⟨g, hg, hsz, hd⟩ := hfull
  have ht : textOf specB <+: textOf fullB := hcut.map _
  rcases C75_cut_spec g hg hsz hd ht with h | h | h | ⟨h, h1, -, h2⟩
  · exact .inl h
  · exact .inr (.inl h)
  · exact .inr (.inr (.inl fun g e => by rw [h] at e; cases e))
  · obtain ⟨text, e1, e2⟩ := C14_dump_parse g hg hsz
    rw [hd] at e1
    cases e1
    exact .inr (.inr (.inr (plain_congr e2 h1 (fun w => by rw [h2 w]; rfl) hap ho)))

/-- **C75**, `run plain`: with a spec file whose end is missing it prints what it prints with the complete file, or it fails, unless the file was
cut inside the last number of a line or before the end of the line of the initial state. -/
theorem C75_run_plain {fs fs1 : Files} {S I : String} (hS : Word S) (hI : Word I) {specB fullB inB : List Byte}
    (hs : fs S = some specB) (hi : fs I = some inB) (hs1 : fs1 S = some fullB) (hi1 : fs1 I = some inB)
    (hfull : ∃ g : Graph, g.WF ∧ g.size ≤ 2 ^ 31 ∧ g.dump = .ok (textOf fullB)) (hcut : specB <+: fullB) {ap : Nat} (hap : 0 < ap)
    (hap64 : ap < 2 ^ 64) {out : List Char}
    (hplain : RunHomfa L [] fs1 ["run", "plain", "--ap", toString ap, "--spec", S, "--in", I] (.ok (fs1, out))) :
    CutInLastNumber (textOf fullB) (textOf specB) ∨ CutBeforeInitial (textOf fullB) (textOf specB) ∨
      (∀ r, RunHomfa L [] fs ["run", "plain", "--ap", toString ap, "--spec", S, "--in", I] r → ∃ e, r = .error e) ∨
      ∀ r, RunHomfa L [] fs ["run", "plain", "--ap", toString ap, "--spec", S, "--in", I] r ↔ r = .ok (fs, out) := by
  have hp := (run_plain hS hI hs1 hi1 hap hap64).1 hplain
  have hp : doRunPlain (textOf fullB) (some inB) ap = .ok out := by
    cases h : doRunPlain (textOf fullB) (some inB) ap with
    | error e => rw [h] at hp; cases hp
    | ok o => rw [h] at hp; cases hp; rfl
  rcases cut_plain hfull hcut hap hp with h | h | h | h
  · exact .inl h
  · exact .inr (.inl h)
  · refine .inr (.inr (.inl fun r hr => ?_))
    have := (run_plain hS hI hs hi hap hap64).1 hr
    cases hd : doRunPlain (textOf specB) (some inB) ap with
    | error e => exact ⟨e, by rw [this, hd]; rfl⟩
    | ok o => obtain ⟨g, hg⟩ := plain_spec hd; exact absurd hg (h g)
  · refine .inr (.inr (.inr fun r => ?_))
    rw [run_plain hS hI hs hi hap hap64, h]
    rfl

/-- a run command that ends normally has read a spec -/
theorem sources_offline {fs : Files} {stdin : List Char} {spec input out bkey : String} {boot : Nat} {sanitize : Bool} {r : Files × List Char}
    (h : Exec L stdin fs (.runOffline spec input out boot bkey sanitize) (.ok r)) : Source.Holds L fs spec .spec := by
  generalize hr : (Except.ok r : Res (Files × List Char)) = x at h
  cases h with
  | runOffline =>
    obtain ⟨p, -, h⟩ := Res.bind_eq_ok.1 hr.symm
    obtain ⟨b, -, h⟩ := Res.bind_eq_ok.1 h
    obtain ⟨s, h2, h⟩ := Res.bind_eq_ok.1 h
    obtain ⟨c, h3, -⟩ := Res.bind_eq_ok.1 h
    exact spec_holds h2 (offline_spec h3)

theorem sources_block {fs : Files} {stdin : List Char} {spec input out bkey : String} {queue : Nat} {sanitize : Bool} {r : Files × List Char}
    (h : Exec L stdin fs (.runBlock spec input out queue bkey sanitize) (.ok r)) : Source.Holds L fs spec .spec := by
  generalize hr : (Except.ok r : Res (Files × List Char)) = x at h
  cases h with
  | runBlock =>
    obtain ⟨p, -, h⟩ := Res.bind_eq_ok.1 hr.symm
    obtain ⟨s, h2, h⟩ := Res.bind_eq_ok.1 h
    obtain ⟨b, -, h⟩ := Res.bind_eq_ok.1 h
    obtain ⟨c, h3, -⟩ := Res.bind_eq_ok.1 h
    exact spec_holds h2 (block_spec h3)

theorem sources_reverse {fs : Files} {stdin : List Char} {spec input bkey : String} {out outDir : Option String} {freq boot : Nat}
    {isRev sanitize : Bool} {r : Files × List Char}
    (h : Exec L stdin fs (.runReverse spec input out outDir freq boot isRev bkey sanitize) (.ok r)) : Source.Holds L fs spec .spec := by
  generalize hr : (Except.ok r : Res (Files × List Char)) = x at h
  cases h with
  | runReverse =>
    obtain ⟨p, -, h⟩ := Res.bind_eq_ok.1 hr.symm
    obtain ⟨b, -, h⟩ := Res.bind_eq_ok.1 h
    obtain ⟨s, h2, h⟩ := Res.bind_eq_ok.1 h
    obtain ⟨c, h3, -⟩ := Res.bind_eq_ok.1 h
    exact spec_holds h2 (reverse_spec h3)

theorem sources_flut {fs : Files} {stdin : List Char} {spec input bkey : String} {out outDir debugSkey : Option String} {freq queue boot : Nat}
    {maxSecond : Option Nat} {sanitize : Bool} {r : Files × List Char}
    (h : Exec L stdin fs (.runFlut spec input out outDir freq queue boot bkey maxSecond debugSkey sanitize) (.ok r)) :
    Source.Holds L fs spec .spec := by
  generalize hr : (Except.ok r : Res (Files × List Char)) = x at h
  cases h with
  | runFlut =>
    obtain ⟨p, -, h⟩ := Res.bind_eq_ok.1 hr.symm
    obtain ⟨s, h2, h⟩ := Res.bind_eq_ok.1 h
    obtain ⟨b, -, h⟩ := Res.bind_eq_ok.1 h
    obtain ⟨⟨⟩, -, h⟩ := Res.bind_eq_ok.1 h
    obtain ⟨c, h3, -⟩ := Res.bind_eq_ok.1 h
    exact spec_holds h2 (flut_spec h3)

/-- a sequence whose fourth command refuses the spec -/
theorem script_refused {S K B C I : String} {ap : Nat} (hap : 0 < ap) (hap64 : ap < 2 ^ 64) {fs : Files} {X Y : List String} (hK : Word K) (hB : Word B) (hI : Word I) (hC : Word C)
    (hSK : S ≠ K) (hSB : S ≠ B) (hSC : S ≠ C)
    (hX : ∀ fs1 : Files, fs1 S = fs S → ∀ r, RunHomfa L [] fs1 X r → ∃ e, r = .error e) {r : Res (Files × List Char)}
    (h : Script L fs [["genkey", "--out", K], ["genbkey", "--key", K, "--out", B],
      ["enc", "--ap", toString ap, "--key", K, "--in", I, "--out", C], X, Y] r) : ∃ e, r = .error e := by
  have frame : ∀ {fs fs1 : Files} {o : List Char} {toks : List String} {c : Call}, homfaMain (fun _ => true) toks = .ok (some c) →
      ¬c.Writes S → RunHomfa L [] fs toks (.ok (fs1, o)) → fs1 S = fs S := by
    intro fs fs1 o toks c h0 hc h
    cases h with
    | call h1 h2 => cases call_of_runs h0 h1; exact (C62_calls h2).1 S hc
  cases h with
  | stop h => exact ⟨_, rfl⟩
  | next h1 h =>
  have e1 := frame (main_genkey hK) (show ¬S = K from hSK) h1
  cases h with
  | stop h => exact ⟨_, rfl⟩
  | next h2 h =>
  have e2 := frame (main_genbkey hK hB) (show ¬S = B from hSB) h2
  cases h with
  | stop h => exact ⟨_, rfl⟩
  | next h3 h =>
  have e3 := frame (main_enc hK hI hC hap hap64) (show ¬S = C from hSC) h3
  cases h with
  | stop h => exact ⟨_, rfl⟩
  | next h4 h =>
    obtain ⟨e, he⟩ := hX _ (e3.trans (e2.trans e1)) _ h4
    cases he

/-- **C75**, the sequence of the README with `run offline` and a spec file whose end is missing: it prints the verdict of `run plain` with the complete file, or
no run of it ends normally, unless the file was cut in one of the two places. -/
theorem C75_offline (hL : L.Sound δ Enc) (hN : 0 < N) (hl : 0 < l) (hbs : blockSize l N < 2 ^ 63) {S I K B C R : String}
    (hn : Names S I K B C R) (fs : Files) {specB fullB inB : List Byte} (hs : fs S = some specB)
    (hi : fs I = some inB) {fs1 : Files} (hs1 : fs1 S = some fullB) (hi1 : fs1 I = some inB)
    (hfull : ∃ g : Graph, g.WF ∧ g.size ≤ 2 ^ 31 ∧ g.dump = .ok (textOf fullB)) (hcut : specB <+: fullB)
    (hlen : 8 * inB.length * blockSize l N < 2 ^ 63)
    {ap boot : Nat} (h31 : inB.length / recordBytes ap * ap < 2 ^ 31) (hap : 0 < ap) (hap64 : ap < 2 ^ 64) (hb : 0 < boot)
    (hb64 : boot < 2 ^ 64) (hbud : δ.br + boot * δ.cmux + δ.ks + δ.ms < 2 ^ 30) {fs' : Files} {out : List Char}
    (hplain : RunHomfa L [] fs1 ["run", "plain", "--ap", toString ap, "--spec", S, "--in", I] (.ok (fs', out))) :
    CutInLastNumber (textOf fullB) (textOf specB) ∨ CutBeforeInitial (textOf fullB) (textOf specB) ∨
    (∀ r, Script L fs [["genkey", "--out", K], ["genbkey", "--key", K, "--out", B],
      ["enc", "--ap", toString ap, "--key", K, "--in", I, "--out", C],
      ["run", "offline", "--bkey", B, "--out", R, "--spec", S, "--in", C, "--bootstrapping-freq", toString boot],
      ["dec", "--key", K, "--in", R]] r → ∃ e, r = .error e) ∨
    AlwaysPrints L fs [["genkey", "--out", K], ["genbkey", "--key", K, "--out", B],
      ["enc", "--ap", toString ap, "--key", K, "--in", I, "--out", C],
      ["run", "offline", "--bkey", B, "--out", R, "--spec", S, "--in", C, "--bootstrapping-freq", toString boot],
      ["dec", "--key", K, "--in", R]] out [K, B, C, R] := by
  have hd := hn.distinct
  simp only [List.nodup_cons, List.mem_cons, List.not_mem_nil, or_false, not_or] at hd
  obtain ⟨⟨dSI, dSK, dSB, dSC, dSR⟩, -⟩ := hd
  have wS := hn.words S (by simp)
  have hp := (run_plain wS (hn.words I (by simp)) hs1 hi1 hap hap64).1 hplain
  have hplain : doRunPlain (textOf fullB) (some inB) ap = .ok out := by
    cases h : doRunPlain (textOf fullB) (some inB) ap with
    | error e => rw [h] at hp; cases hp
    | ok o => rw [h] at hp; cases hp; rfl
  rcases cut_plain hfull hcut hap hplain with h | h | h | hplain
  · exact .inl h
  · exact .inr (.inl h)
  · refine .inr (.inr (.inl fun r hr => script_refused hap hap64 (hn.words K (by simp)) (hn.words B (by simp)) (hn.words I (by simp))
      (hn.words C (by simp)) dSK dSB dSC (fun fs2 he r hr => ?_) hr))
    cases r with
    | error e => exact ⟨e, rfl⟩
    | ok r =>
      cases hr with
      | call h1 h2 =>
        cases call_of_runs (main_offline (hn.words B (by simp)) (hn.words R (by simp)) wS (hn.words C (by simp)) hb hb64) h1
        obtain ⟨_, g, e, hg⟩ := sources_offline h2
        rw [he, hs] at e
        cases e
        exact absurd hg (h g)
  · refine .inr (.inr (.inr ?_))
    exact pipeline hL hn.usable fs hs hi hlen hap hap64 hplain _ (right_offline hL hN hl hbs hn.usable hap hb hb64 hbud h31 hplain)

/-- **C75**, the sequence of the README with `run reverse` and a spec file whose end is missing: it prints the verdict of `run plain` with the complete file, or
no run of it ends normally, unless the file was cut in one of the two places. -/
theorem C75_reverse (hL : L.Sound δ Enc) (hN : 0 < N) (hl : 0 < l) (hbs : blockSize l N < 2 ^ 63) {S I K B C R : String}
    (hn : Names S I K B C R) (fs : Files) {specB fullB inB : List Byte} (hs : fs S = some specB)
    (hi : fs I = some inB) {fs1 : Files} (hs1 : fs1 S = some fullB) (hi1 : fs1 I = some inB)
    (hfull : ∃ g : Graph, g.WF ∧ g.size ≤ 2 ^ 31 ∧ g.dump = .ok (textOf fullB)) (hcut : specB <+: fullB)
    (hlen : 8 * inB.length * blockSize l N < 2 ^ 63) {ap freq boot : Nat} (hap : 0 < ap) (hap64 : ap < 2 ^ 64) (hf : 0 < freq)
    (hf64 : freq < 2 ^ 64) (hb : 0 < boot) (hb64 : boot < 2 ^ 64) (hbud : δ.br + boot * δ.cmux + δ.ks + δ.ms < 2 ^ 30) {fs' : Files}
    {out : List Char} (hplain : RunHomfa L [] fs1 ["run", "plain", "--ap", toString ap, "--spec", S, "--in", I] (.ok (fs', out))) :
    CutInLastNumber (textOf fullB) (textOf specB) ∨ CutBeforeInitial (textOf fullB) (textOf specB) ∨
    (∀ r, Script L fs [["genkey", "--out", K], ["genbkey", "--key", K, "--out", B],
      ["enc", "--ap", toString ap, "--key", K, "--in", I, "--out", C],
      ["run", "reverse", "--bkey", B, "--out", R, "--spec", S, "--in", C, "--out-freq", toString freq,
        "--bootstrapping-freq", toString boot],
      ["dec", "--key", K, "--in", R]] r → ∃ e, r = .error e) ∨
    AlwaysPrints L fs [["genkey", "--out", K], ["genbkey", "--key", K, "--out", B],
      ["enc", "--ap", toString ap, "--key", K, "--in", I, "--out", C],
      ["run", "reverse", "--bkey", B, "--out", R, "--spec", S, "--in", C, "--out-freq", toString freq,
        "--bootstrapping-freq", toString boot],
      ["dec", "--key", K, "--in", R]] out [K, B, C, R] := by
  have hd := hn.distinct
  simp only [List.nodup_cons, List.mem_cons, List.not_mem_nil, or_false, not_or] at hd
  obtain ⟨⟨dSI, dSK, dSB, dSC, dSR⟩, -⟩ := hd
  have wS := hn.words S (by simp)
  have hp := (run_plain wS (hn.words I (by simp)) hs1 hi1 hap hap64).1 hplain
  have hplain : doRunPlain (textOf fullB) (some inB) ap = .ok out := by
    cases h : doRunPlain (textOf fullB) (some inB) ap with
    | error e => rw [h] at hp; cases hp
    | ok o => rw [h] at hp; cases hp; rfl
  rcases cut_plain hfull hcut hap hplain with h | h | h | hplain
  · exact .inl h
  · exact .inr (.inl h)
  · refine .inr (.inr (.inl fun r hr => script_refused hap hap64 (hn.words K (by simp)) (hn.words B (by simp)) (hn.words I (by simp))
      (hn.words C (by simp)) dSK dSB dSC (fun fs2 he r hr => ?_) hr))
    cases r with
    | error e => exact ⟨e, rfl⟩
    | ok r =>
      cases hr with
      | call h1 h2 =>
        cases call_of_runs (main_reverse (hn.words B (by simp)) (hn.words R (by simp)) wS (hn.words C (by simp)) hf hf64 hb hb64) h1
        obtain ⟨_, g, e, hg⟩ := sources_reverse h2
        rw [he, hs] at e
        cases e
        exact absurd hg (h g)
  · refine .inr (.inr (.inr ?_))
    exact pipeline hL hn.usable fs hs hi hlen hap hap64 hplain _ (right_reverse hL hN hl hbs hn.usable hap hf hf64 hb hb64 hbud hplain)

/-- **C75**, the sequence of the README with `run block` and a spec file whose end is missing: it prints the verdict of `run plain` with the complete file, or
no run of it ends normally, unless the file was cut in one of the two places. -/
theorem C75_block (hL : L.Sound δ Enc) (hN : 0 < N) (hl : 0 < l) (hbs : blockSize l N < 2 ^ 63) {S I K B C R : String}
    (hn : Names S I K B C R) (fs : Files) {specB fullB inB : List Byte} (hs : fs S = some specB)
    (hi : fs I = some inB) {fs1 : Files} (hs1 : fs1 S = some fullB) (hi1 : fs1 I = some inB)
    (hfull : ∃ g : Graph, g.WF ∧ g.size ≤ 2 ^ 31 ∧ g.dump = .ok (textOf fullB)) (hcut : specB <+: fullB) (hne : inB ≠ [])
    (hlen : 8 * inB.length * blockSize l N < 2 ^ 63) {ap freq queue W : Nat} (hap : 0 < ap) (hap64 : ap < 2 ^ 64) (hf : 0 < freq)
    (hf64 : freq < 2 ^ 64) (hq : 0 < queue) (hqi : queue ≤ 2 ^ 31)
    (hW : ∀ g, Graph.fromIstream (textOf specB) = .ok g → LiveBits g W) (hWN : W < N) (hW31 : W < 31)
    (hbud : (queue + W) * δ.cmux + δ.cb < 2 ^ 29) {fs' : Files}
    {out : List Char} (hplain : RunHomfa L [] fs1 ["run", "plain", "--ap", toString ap, "--spec", S, "--in", I] (.ok (fs', out))) :
    CutInLastNumber (textOf fullB) (textOf specB) ∨ CutBeforeInitial (textOf fullB) (textOf specB) ∨
    (∀ r, Script L fs [["genkey", "--out", K], ["genbkey", "--key", K, "--out", B],
      ["enc", "--ap", toString ap, "--key", K, "--in", I, "--out", C],
      ["run", "block", "--bkey", B, "--out", R, "--spec", S, "--in", C, "--out-freq", toString freq, "--queue-size", toString queue],
      ["dec", "--key", K, "--in", R]] r → ∃ e, r = .error e) ∨
    AlwaysPrints L fs [["genkey", "--out", K], ["genbkey", "--key", K, "--out", B],
      ["enc", "--ap", toString ap, "--key", K, "--in", I, "--out", C],
      ["run", "block", "--bkey", B, "--out", R, "--spec", S, "--in", C, "--out-freq", toString freq, "--queue-size", toString queue],
      ["dec", "--key", K, "--in", R]] out [K, B, C, R] := by
  have hd := hn.distinct
  simp only [List.nodup_cons, List.mem_cons, List.not_mem_nil, or_false, not_or] at hd
  obtain ⟨⟨dSI, dSK, dSB, dSC, dSR⟩, -⟩ := hd
  have wS := hn.words S (by simp)
  have hp := (run_plain wS (hn.words I (by simp)) hs1 hi1 hap hap64).1 hplain
  have hplain : doRunPlain (textOf fullB) (some inB) ap = .ok out := by
    cases h : doRunPlain (textOf fullB) (some inB) ap with
    | error e => rw [h] at hp; cases hp
    | ok o => rw [h] at hp; cases hp; rfl
  rcases cut_plain hfull hcut hap hplain with h | h | h | hplain
  · exact .inl h
  · exact .inr (.inl h)
  · refine .inr (.inr (.inl fun r hr => script_refused hap hap64 (hn.words K (by simp)) (hn.words B (by simp)) (hn.words I (by simp))
      (hn.words C (by simp)) dSK dSB dSC (fun fs2 he r hr => ?_) hr))
    cases r with
    | error e => exact ⟨e, rfl⟩
    | ok r =>
      cases hr with
      | call h1 h2 =>
        cases call_of_runs (main_block (hn.words B (by simp)) (hn.words R (by simp)) wS (hn.words C (by simp)) hf hf64 hq (by omega)) h1
        obtain ⟨_, g, e, hg⟩ := sources_block h2
        rw [he, hs] at e
        cases e
        exact absurd hg (h g)
  · refine .inr (.inr (.inr ?_))
    exact pipeline hL hn.usable fs hs hi hlen hap hap64 hplain _ (right_block hL hN hl hbs hn.usable hne hap hf hf64 hq hqi hW hWN hW31 hbud hplain)

/-- **C75**, the sequence of the README with `run flut` and a spec file whose end is missing: it prints the verdict of `run plain` with the complete file, or
no run of it ends normally, unless the file was cut in one of the two places. -/
theorem C75_flut (hL : L.Sound δ Enc) (hN : 0 < N) (hl : 0 < l) (hbs : blockSize l N < 2 ^ 63) {S I K B C R : String}
    (hn : Names S I K B C R) (fs : Files) {specB fullB inB : List Byte} (hs : fs S = some specB)
    (hi : fs I = some inB) {fs1 : Files} (hs1 : fs1 S = some fullB) (hi1 : fs1 I = some inB)
    (hfull : ∃ g : Graph, g.WF ∧ g.size ≤ 2 ^ 31 ∧ g.dump = .ok (textOf fullB)) (hcut : specB <+: fullB)
    (hlen : 8 * inB.length * blockSize l N < 2 ^ 63) {ap freq queue depth boot W : Nat} (hap : 0 < ap) (hap64 : ap < 2 ^ 64) (hf : 0 < freq)
    (hf64 : freq < 2 ^ 64) (hq : 0 < queue) (hq31 : queue < 31) (hd : 0 < depth) (hd31 : depth < 31) (hdN : 2 ^ depth ≤ N) (hb : 0 < boot)
    (hb64 : boot < 2 ^ 64) (hW : ∀ g, Graph.fromIstream (textOf specB) = .ok g → LiveMax g W) (hWd : W < 2 ^ depth)
    (hbud : W * 2 ^ (queue / 2) * flutErr δ W queue (boot - 1) + queue * δ.cmux + δ.ks + δ.ms < 2 ^ 30) {fs' : Files}
    {out : List Char} (hplain : RunHomfa L [] fs1 ["run", "plain", "--ap", toString ap, "--spec", S, "--in", I] (.ok (fs', out))) :
    CutInLastNumber (textOf fullB) (textOf specB) ∨ CutBeforeInitial (textOf fullB) (textOf specB) ∨
    (∀ r, Script L fs [["genkey", "--out", K], ["genbkey", "--key", K, "--out", B],
      ["enc", "--ap", toString ap, "--key", K, "--in", I, "--out", C],
      ["run", "flut", "--bkey", B, "--out", R, "--spec", S, "--in", C, "--out-freq", toString freq, "--queue-size", toString queue,
        "--max-second-lut-depth", toString depth, "--bootstrapping-freq", toString boot],
      ["dec", "--key", K, "--in", R]] r → ∃ e, r = .error e) ∨
    AlwaysPrints L fs [["genkey", "--out", K], ["genbkey", "--key", K, "--out", B],
      ["enc", "--ap", toString ap, "--key", K, "--in", I, "--out", C],
      ["run", "flut", "--bkey", B, "--out", R, "--spec", S, "--in", C, "--out-freq", toString freq, "--queue-size", toString queue,
        "--max-second-lut-depth", toString depth, "--bootstrapping-freq", toString boot],
      ["dec", "--key", K, "--in", R]] out [K, B, C, R] := by
  have hd := hn.distinct
  simp only [List.nodup_cons, List.mem_cons, List.not_mem_nil, or_false, not_or] at hd
  obtain ⟨⟨dSI, dSK, dSB, dSC, dSR⟩, -⟩ := hd
  have wS := hn.words S (by simp)
  have hp := (run_plain wS (hn.words I (by simp)) hs1 hi1 hap hap64).1 hplain
  have hplain : doRunPlain (textOf fullB) (some inB) ap = .ok out := by
    cases h : doRunPlain (textOf fullB) (some inB) ap with
    | error e => rw [h] at hp; cases hp
    | ok o => rw [h] at hp; cases hp; rfl
  rcases cut_plain hfull hcut hap hplain with h | h | h | hplain
  · exact .inl h
  · exact .inr (.inl h)
  · refine .inr (.inr (.inl fun r hr => script_refused hap hap64 (hn.words K (by simp)) (hn.words B (by simp)) (hn.words I (by simp))
      (hn.words C (by simp)) dSK dSB dSC (fun fs2 he r hr => ?_) hr))
    cases r with
    | error e => exact ⟨e, rfl⟩
    | ok r =>
      cases hr with
      | call h1 h2 =>
        cases call_of_runs (main_flut (hn.words B (by simp)) (hn.words R (by simp)) wS (hn.words C (by simp)) hf hf64 hq (by omega) hd (by omega) hb hb64) h1
        obtain ⟨_, g, e, hg⟩ := sources_flut h2
        rw [he, hs] at e
        cases e
        exact absurd hg (h g)
  · refine .inr (.inr (.inr ?_))
    exact pipeline hL hn.usable fs hs hi hlen hap hap64 hplain _ (right_flut hL hN hl hbs hn.usable hap hf hf64 hq hq31 hd hd31 hdN hb hb64 hW hWd hbud hplain)

end Homfa.Cli

namespace Homfa
open Spec

/-! ## Both exceptions are real -/

/-- eleven states; the initial state goes to state 10 on 1, which is final and stays there on 1 -/
def exEleven : List Char :=
  ">0\t0\t10\n1\t1\t1\n2\t2\t2\n3\t3\t3\n4\t4\t4\n5\t5\t5\n6\t6\t6\n7\t7\t7\n8\t8\t8\n9\t9\t9\n10*\t10\t10\n".toList

/-- **C75**, cut inside the last number: without its last two characters (a digit and the newline) `exEleven` is read without complaint, and the
word 11, accepted before, is refused. -/
theorem C75_cut_in_number_wrong : ∃ g h : Graph, g.WF ∧ g.dump = .ok exEleven ∧ CutInLastNumber exEleven (exEleven.take (exEleven.length - 2)) ∧
    Graph.fromIstream exEleven = .ok g ∧ Graph.fromIstream (exEleven.take (exEleven.length - 2)) = .ok h ∧
    g.accepts [true, true] = .ok true ∧ h.accepts [true, true] = .ok false := by
  have key : (Graph.fromIstream exEleven).bind (fun g => (Graph.fromIstream (exEleven.take (exEleven.length - 2))).bind fun h =>
      .ok (decide (0 < g.size) && decide (g.dump = .ok exEleven) && decide (g.accepts [true, true] = .ok true) &&
        decide (h.accepts [true, true] = .ok false))) = .ok true := by decide +kernel
  obtain ⟨g, h1, key⟩ := Res.bind_eq_ok.1 key
  obtain ⟨h, h2, key⟩ := Res.bind_eq_ok.1 key
  simp only [Except.ok.injEq, Bool.and_eq_true, decide_eq_true_eq] at key
  obtain ⟨⟨⟨k1, k2⟩, k3⟩, k4⟩ := key
  exact ⟨g, h, wf_of_fromIstream h1 k1, k2, ⟨exEleven.take (exEleven.length - 4), ['1'], ['0'], [], by decide, by decide, ⟨by decide, by decide⟩,
    ⟨by decide, by decide⟩⟩, h1, h2, k3, k4⟩

/-- **C75**, cut before the initial line: the first line of a spec whose initial state is 1 is read as a spec whose initial state is 0. -/
theorem C75_cut_before_initial_wrong : let text := "0\t0\t0\n>1*\t1\t1\n".toList
    ∃ g h : Graph, g.WF ∧ g.dump = .ok text ∧ CutBeforeInitial text (text.take 6) ∧
    Graph.fromIstream text = .ok g ∧ Graph.fromIstream (text.take 6) = .ok h ∧ g.accepts [] = .ok true ∧ h.accepts [] = .ok false := by
  intro text
  have key : (Graph.fromIstream text).bind (fun g => (Graph.fromIstream (text.take 6)).bind fun h =>
      .ok (decide (0 < g.size) && decide (g.dump = .ok text) && decide (g.accepts [] = .ok true) && decide (h.accepts [] = .ok false))) =
      .ok true := by decide +kernel
  obtain ⟨g, h1, key⟩ := Res.bind_eq_ok.1 key
  obtain ⟨h, h2, key⟩ := Res.bind_eq_ok.1 key
  simp only [Except.ok.injEq, Bool.and_eq_true, decide_eq_true_eq] at key
  obtain ⟨⟨⟨k1, k2⟩, k3⟩, k4⟩ := key
  exact ⟨g, h, wf_of_fromIstream h1 k1, k2, ⟨text.take 6, "1*\t1\t1".toList, [], by decide, by decide, by decide, by decide⟩, h1, h2, k3, k4⟩

/-- What else can happen: cut after the first line, `exEleven` is refused; cut inside its first line it is read as a graph without states. -/
example : Graph.fromIstream (exEleven.take 8) = .error .outOfRange ∧ (do let h ← Graph.fromIstream (exEleven.take 3); h.accepts [true]) = .error .outOfRange := by
  decide +kernel

/-- A cut nobody needs to notice: the lines after the first are not reachable. -/
example : (do let h ← Graph.fromIstream (">0*\t0\t0\n1\t1\t0\n".toList.take 8); pure h.size) = .ok 1 := by decide +kernel

/-- The hypotheses on the files are met by the first line of `exEleven`, which is in neither of the two excepted places, and `run plain` on the
complete file prints 1 for the input byte 1. -/
example : let fullB : List Byte := exEleven.map fun c => BitVec.ofNat 8 c.toNat
    (∃ g : Graph, g.WF ∧ g.size ≤ 2 ^ 31 ∧ g.dump = .ok (Cli.textOf fullB)) ∧ fullB.take 8 <+: fullB ∧
    doRunPlain (Cli.textOf fullB) (some [1#8]) 1 = .ok ['1'] ∧
    ∀ o, doRunPlain (Cli.textOf (fullB.take 8)) (some [1#8]) 1 ≠ .ok o := by
  intro fullB
  have e : Cli.textOf fullB = exEleven := by decide +kernel
  obtain ⟨g, -, h1, h2, -, h3, -⟩ := C75_cut_in_number_wrong
  refine ⟨⟨g, h1, ?_, by rw [e]; exact h2⟩, List.take_prefix _ _, by decide +kernel, fun o => ?_⟩
  · refine le_trans (Graph.length_dump h1 h2) (by decide +kernel)
  · have : doRunPlain (Cli.textOf (fullB.take 8)) (some [1#8]) 1 = .error .outOfRange := by decide +kernel
    rw [this]; simp

end Homfa
