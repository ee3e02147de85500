import Verif.Proof.Damage
import Verif.Props.Cut
import Verif.Props.Clean

/-!
# C91: damaged lines of a specification

The reader skips every line that does not look like a line of a spec, without a word.  A line that was lost or made unreadable is still noticed, by the
numbers of the lines after it, unless all of them are gone too; then the missing states are noticed, if they are needed.
-/

namespace Homfa
open Spec

/-- **C91**, layout: two texts that list the same states are read alike: how blanks, comments, empty lines, leading zeros, trailing commas or the newline at
the end of the file are arranged makes no difference. -/
theorem C91_layout {text text' : List Char} {ls ls' : List (List Char)} {rows : List Row} (ht : TextLines text ls) (ht' : TextLines text' ls')
    (hr : SpecRows 0 ls rows) (hr' : SpecRows 0 ls' rows) : Graph.fromIstream text' = Graph.fromIstream text := by
  rw [fromIstream_rows ht hr, fromIstream_rows ht' hr']

/-- **C91**, damage: a spec some of whose lines were lost or made unreadable is refused, or what is left is the spec of its first states only, to which `C16_spec_meaning` and
`C16_no_rows` apply: a lost line with a readable one after it is noticed. -/
theorem C91_damage {text' : List Char} {ls ls' : List (List Char)} {rows : List Row} (hr : SpecRows 0 ls rows)
    (ht' : TextLines text' ls') (hd : Damaged ls ls') :
    Graph.fromIstream text' = .error .die ∨ ∃ k ≤ rows.length, SpecRows 0 ls' (rows.take k) := by
  obtain ⟨j, hj, h | ⟨a, b, rfl, h1, a', l, b', ini, num, fin, t0, t1, on0, on1, rfl, h2, h3, h4, h5, h6, h7⟩⟩ := damaged_rows hd hr
  · exact .inr ⟨j, hj, h⟩
  · left
    rw [← List.append_assoc] at ht'
    have := specRows_append h1 (specRows_nil h2)
    refine C16_wrong_number_dies text' (a ++ a') b' l _ ht' this ini fin num t0 t1 h3 on0 on1 h4 h5 ?_ h7
    rw [List.append_nil, List.length_take, Nat.min_eq_left hj]
    omega

/-- **C91**, a spec the program itself printed, initial state 0, with damaged lines: it is refused, or has no spec line left, or is read as a graph with the
same language. -/
theorem C91_printed (g : Graph) (hg : g.WF) (hsz : g.size ≤ 2 ^ 31) (h0 : g.initialState = 0) {text text' : List Char} (hp : g.dump = .ok text)
    (hd : DamagedText text text') :
    Graph.fromIstream text' = .error .die ∨ Graph.fromIstream text' = .error .outOfRange ∨ NoSpecLine text' ∨
      ∃ h, Graph.fromIstream text' = .ok h ∧ h.WF ∧ ∀ w, h.accepts w = g.accepts w := by
  obtain ⟨ls, ls', ht, ht', hd⟩ := hd
  have hls : ls = (List.range g.size).map g.dumpLine := by
    rw [Graph.dump_ok hg] at hp
    cases hp
    rw [← textLines_iff.1 ht]
    refine getlines_unlines fun l hl => ?_
    obtain ⟨q, -, rfl⟩ := List.mem_map.1 hl
    exact Graph.not_newline_dumpLine q
  have hr := Graph.specRows_range hg hsz g.size le_rfl
  rw [← hls] at hr
  rcases C91_damage hr ht' hd with h | ⟨k, hk, h⟩
  · exact .inl h
  · rw [List.length_map, List.length_range] at hk
    rw [← List.map_take, List.take_range, Nat.min_eq_left hk] at h
    rcases Nat.eq_zero_or_pos k with rfl | hpos
    · exact .inr (.inr (.inl ⟨ls', ht', notSpec_of_specRows h⟩))
    · rcases read_rows hg (show g.initialState < k by omega) ht' h with h | h
      · exact .inr (.inl h)
      · exact .inr (.inr (.inr h))

/-- a text without spec lines -/
theorem fromIstream_noSpecLine {text : List Char} (h : NoSpecLine text) : Graph.fromIstream text = .ok emptyGraph := by
  obtain ⟨ls, h1, h2⟩ := h
  rw [fromIstream_rows h1 (specRows_nil h2)]
  rfl

theorem plain_empty {text : List Char} (h : Graph.fromIstream text = .ok emptyGraph) {input : Option (List Byte)} {ap : Nat} (hap : 0 < ap) (o : List Char) :
    doRunPlain text input ap ≠ .ok o := by
  intro ho
  obtain ⟨g, _, _, h1, h2, _⟩ := plain_ok hap ho
  rw [h] at h1
  cases h1
  exact absurd h2.init_lt (by decide)

/-- **C91**, nothing left: with a spec file without spec lines `run plain` fails on every input and `run offline` on every ciphertext, but `run reverse` does what
it does with the spec of the automaton that rejects everything. -/
theorem C91_nothing_left {N n l : Nat} (S : Scheme N n l) {text : List Char} (h : NoSpecLine text) :
    (∀ input ap, 0 < ap → ∀ o, doRunPlain text input ap ≠ .ok o) ∧
    (∀ size cs boot, doRunOffline S text size cs boot false = .error .outOfRange) ∧
    ∀ size cs freq boot out, doRunReverse S text size cs (some out) none freq boot false false =
      doRunReverse S ">0\t0\t0\n".toList size cs (some out) none freq boot true false := by
  have h' := fromIstream_noSpecLine h
  refine ⟨fun input ap hap o => plain_empty h' hap o, fun size cs boot => ?_, fun size cs freq boot out => reverse_empty_as S h' cs boot size freq out⟩
  unfold doRunOffline
  rw [h', Res.bind_ok, show emptyGraph.minimized = .error .outOfRange from by decide, Res.bind_err]

/-- **C91**, carriage returns: a spec file whose lines end in a carriage return and a newline has no spec line, whatever it contains. -/
theorem C91_crlf {text : List Char} (h : text = [] ∨ text.getLast? = some '\n') : NoSpecLine (crlf text) := by
  have key : ∃ ls : List (List Char), (∀ l ∈ ls, '\n' ∉ l) ∧ text = ls.flatMap (· ++ ['\n']) := by
    refine ⟨getlines '\n' text, fun l hl => not_mem_getlines l hl, ?_⟩
    rcases getlines_flat '\n' text with h1 | ⟨h1, h2, h3⟩
    · exact h1
    · exfalso
      obtain ⟨ls, l, hl⟩ : ∃ ls l, getlines '\n' text = ls ++ [l] := ⟨_, _, (List.dropLast_append_getLast h2).symm⟩
      rw [hl] at h1 h3
      have hln : '\n' ∉ l := not_mem_getlines l (by rw [hl]; simp)
      have hl0 : l ≠ [] := by simpa using h3
      rw [List.flatMap_append, List.flatMap_singleton, ← List.append_assoc] at h1
      have e := List.append_cancel_right h1
      rcases h with h | h
      · rw [h] at e
        exact hl0 (List.append_eq_nil_iff.1 e.symm).2
      · rw [e, List.getLast?_append_of_ne_nil _ hl0] at h
        exact hln (List.mem_of_getLast? h)
  obtain ⟨ls, h1, rfl⟩ := key
  rw [crlf_unlines h1]
  refine ⟨_, ⟨fun l hl => ?_, .inl rfl⟩, fun l hl => ?_⟩
  · obtain ⟨l', hl', rfl⟩ := List.mem_map.1 hl
    rw [List.mem_append, List.mem_singleton, not_or]
    exact ⟨h1 l' hl', by decide⟩
  · obtain ⟨l', -, rfl⟩ := List.mem_map.1 hl
    exact notSpecLine_cr l'

/-- **C91**, carriage returns in an AT&T file: the program exits with an error, whatever the file contains, if it has a newline at all. -/
theorem C91_crlf_att {text : List Char} (h : '\n' ∈ text) : Graph.fromAttIstream (crlf text) = .error .die := by
  obtain ⟨a, b, rfl, ha⟩ := List.eq_append_cons_of_mem h
  unfold Graph.fromAttIstream
  have hcr : '\n' ∉ a ++ ['\r'] := by
    rw [List.mem_append, List.mem_singleton, not_or]
    exact ⟨ha, by decide⟩
  rw [show crlf (a ++ '\n' :: b) = (a ++ ['\r']) ++ '\n' :: crlf b by
      rw [crlf_append, crlf_line ha, List.append_assoc]
      rfl, getlines_cons_delim _ _ _ hcr, List.foldlM_cons]
  have h1 : matchAttFinal (a ++ ['\r']) = none := by
    unfold matchAttFinal
    rw [if_neg]
    simp
  have h2 : matchAttEdge (a ++ ['\r']) = none := by
    cases hm : matchAttEdge (a ++ ['\r']) with
    | none => rfl
    | some p =>
      exfalso
      unfold matchAttEdge at hm
      dsimp only at hm
      split at hm
      · cases hm
      · split at hm
        · cases hm
        · split at hm
          · rename_i k1 k2 k3
            have hs : ∀ {s t : List Char}, t <:+ s → t ≠ [] → t.getLast? = s.getLast? := by
              rintro s t ⟨u, rfl⟩ hne
              rw [List.getLast?_append_of_ne_nil _ hne]
            generalize hc : (List.dropWhile Char.isDigit (List.dropWhile Char.isDigit (a ++ ['\r'])).tail).tail = c at k3
            have hsuf : c <:+ a ++ ['\r'] := by
              rw [← hc]
              exact (List.tail_suffix _).trans ((List.dropWhile_suffix _).trans ((List.tail_suffix _).trans (List.dropWhile_suffix _)))
            simp only [Bool.or_eq_true, decide_eq_true_eq] at k3
            rcases k3 with rfl | rfl
            · have := hs hsuf (by simp)
              rw [List.getLast?_concat] at this
              revert this; decide
            · have := hs hsuf (by simp)
              rw [List.getLast?_concat] at this
              revert this; decide
          · cases hm
  unfold attLine
  rw [h2]
  dsimp only
  rw [h1]
  rfl

/-- **C91**, converters: with damaged lines in what `ltl2spec` or `att2spec` print, `run plain` always fails, or does what it does with all of it. -/
theorem C91_converters {text : List Char} (h : (∃ aut n allFinal, doLtl2spec aut n allFinal = .ok text) ∨ ∃ att, doAtt2spec att = .ok text)
    (hlen : text.length ≤ 2 ^ 31) {text' : List Char} (hd : DamagedText text text') :
    (∀ input ap, 0 < ap → ∀ o, doRunPlain text' input ap ≠ .ok o) ∨
      ∀ input ap, 0 < ap → ∀ o, doRunPlain text' input ap = .ok o ↔ doRunPlain text input ap = .ok o := by
  have key : ∃ g : Graph, g.WF ∧ g.init = 0 ∧ g.dump = .ok text := by
    rcases h with ⟨aut, n, allFinal, h⟩ | ⟨att, h⟩
    · obtain ⟨g, h1, h2⟩ := Res.bind_eq_ok.1 h
      obtain ⟨p, hp, h1⟩ := Res.bind_eq_ok.1 h1
      obtain ⟨d, -, hp⟩ := Res.bind_eq_ok.1 hp
      cases hp
      obtain ⟨h3, -, h4, -⟩ := FromNfa.fromNfa_good (by simp) h1
      exact ⟨g, h3, h4, h2⟩
    · obtain ⟨g, h1, h2⟩ := Res.bind_eq_ok.1 h
      obtain ⟨p, hp, h1⟩ := Res.bind_eq_ok.1 h1
      obtain ⟨h3, -, h4, -⟩ := FromNfa.fromNfa_good (by simp) h1
      exact ⟨g, h3, h4, h2⟩
  obtain ⟨g, hg, h0, hp⟩ := key
  have hsz : g.size ≤ 2 ^ 31 := le_trans (Graph.length_dump hg hp) hlen
  have hno : ∀ e, Graph.fromIstream text' = .error e → ∀ input ap, 0 < ap → ∀ o, doRunPlain text' input ap ≠ .ok o := by
    intro e he input ap hap o ho
    obtain ⟨g', rs, b, e1, -⟩ := plain_ok hap ho
    rw [he] at e1
    cases e1
  rcases C91_printed g hg hsz h0 hp hd with h | h | h | ⟨h, h1, -, h2⟩
  · exact .inl (hno _ h)
  · exact .inl (hno _ h)
  · exact .inl fun input ap hap o => plain_empty (fromIstream_noSpecLine h) hap o
  · obtain ⟨_, e1, e2⟩ := C14_dump_parse g hg hsz
    rw [hp] at e1
    cases e1
    exact .inr fun input ap hap o => ⟨plain_congr h1 e2 (fun w => (h2 w).symm) hap, plain_congr e2 h1 h2 hap⟩

end Homfa

namespace Homfa.Cli
open Spec

variable {N n l : Nat} {L : Lib N n l} {δ : Noise} {Enc : L.Key → Gsw l N → Bool → Prop}

/-- What a damaged spec can do to plaintext runs. -/
theorem damaged_plain {specB fullB : List Byte} (hfull : ∃ g : Graph, g.WF ∧ g.size ≤ 2 ^ 31 ∧ g.initialState = 0 ∧ g.dump = .ok (textOf fullB))
    (hdam : DamagedText (textOf fullB) (textOf specB)) {input : Option (List Byte)} {ap : Nat} (hap : 0 < ap) {o : List Char}
    (ho : doRunPlain (textOf fullB) input ap = .ok o) :
    NoSpecLine (textOf specB) ∨ (∀ g, Graph.fromIstream (textOf specB) ≠ .ok g) ∨ doRunPlain (textOf specB) input ap = .ok o := by
  obtain ⟨g, hg, hsz, h0, hp⟩ := hfull
  rcases C91_printed g hg hsz h0 hp hdam with h | h | h | ⟨h, h1, -, h2⟩
  · exact .inr (.inl fun g e => by rw [h] at e; cases e)
  · exact .inr (.inl fun g e => by rw [h] at e; cases e)
  · exact .inl h
  · obtain ⟨_, e1, e2⟩ := C14_dump_parse g hg hsz
    rw [hp] at e1
    cases e1
    exact .inr (.inr (plain_congr e2 h1 (fun w => by rw [h2 w]; rfl) hap ho))

/-- `run offline` needs a graph with states -/
theorem exec_offline_nonempty {fs : Files} {stdin : List Char} {spec input out bkey : String} {boot : Nat} {r : Files × List Char}
    (h : Exec L stdin fs (.runOffline spec input out boot bkey false) (.ok r)) :
    ∃ b, fs spec = some b ∧ Graph.fromIstream (textOf b) ≠ .ok emptyGraph := by
  generalize hr : (Except.ok r : Res (Files × List Char)) = x at h
  cases h with
  | runOffline =>
    obtain ⟨p, -, h⟩ := Res.bind_eq_ok.1 hr.symm
    obtain ⟨b, -, h⟩ := Res.bind_eq_ok.1 h
    obtain ⟨s, h2, h⟩ := Res.bind_eq_ok.1 h
    obtain ⟨c, h3, -⟩ := Res.bind_eq_ok.1 h
    cases hb : fs spec with
    | none => rw [hb] at h2; cases h2
    | some b' =>
      rw [hb] at h2
      cases h2
      refine ⟨b', rfl, fun he => ?_⟩
      unfold doRunOffline at h3
      rw [he, Res.bind_ok, show emptyGraph.minimized = .error .outOfRange from by decide, Res.bind_err] at h3
      cases h3

/-- **C91**, `run plain`: with a spec file that is damaged it prints what it prints with the complete file, or it fails. -/
theorem C91_run_plain {fs fs1 : Files} {S I : String} (hS : Word S) (hI : Word I) {specB fullB inB : List Byte}
    (hs : fs S = some specB) (hi : fs I = some inB) (hs1 : fs1 S = some fullB) (hi1 : fs1 I = some inB)
    (hfull : ∃ g : Graph, g.WF ∧ g.size ≤ 2 ^ 31 ∧ g.initialState = 0 ∧ g.dump = .ok (textOf fullB))
    (hdam : DamagedText (textOf fullB) (textOf specB)) {ap : Nat} (hap : 0 < ap)
    (hap64 : ap < 2 ^ 64) {out : List Char}
    (hplain : RunHomfa L [] fs1 ["run", "plain", "--ap", toString ap, "--spec", S, "--in", I] (.ok (fs1, out))) :
      (∀ r, RunHomfa L [] fs ["run", "plain", "--ap", toString ap, "--spec", S, "--in", I] r → ∃ e, r = .error e) ∨
      ∀ r, RunHomfa L [] fs ["run", "plain", "--ap", toString ap, "--spec", S, "--in", I] r ↔ r = .ok (fs, out) := by
  have hp := (run_plain hS hI hs1 hi1 hap hap64).1 hplain
  have hp : doRunPlain (textOf fullB) (some inB) ap = .ok out := by
    cases h : doRunPlain (textOf fullB) (some inB) ap with
    | error e => rw [h] at hp; cases hp
    | ok o => rw [h] at hp; cases hp; rfl
  rcases damaged_plain hfull hdam hap hp with h | h | h
  · refine .inl fun r hr => ?_
    have := (run_plain hS hI hs hi hap hap64).1 hr
    cases hd : doRunPlain (textOf specB) (some inB) ap with
    | error e => exact ⟨e, by rw [this, hd]; rfl⟩
    | ok o => exact absurd hd (plain_empty (fromIstream_noSpecLine h) hap o)
  · refine .inl fun r hr => ?_
    have := (run_plain hS hI hs hi hap hap64).1 hr
    cases hd : doRunPlain (textOf specB) (some inB) ap with
    | error e => exact ⟨e, by rw [this, hd]; rfl⟩
    | ok o => obtain ⟨g, hg⟩ := plain_spec hd; exact absurd hg (h g)
  · refine .inr fun r => ?_
    rw [run_plain hS hI hs hi hap hap64, h]
    rfl

/-- **C91**, the sequence of the README with `run offline` and a damaged spec file: it prints the verdict of `run plain` with the complete file, or no run of it
ends normally. -/
theorem C91_offline (hL : L.Sound δ Enc) (hN : 0 < N) (hl : 0 < l) (hbs : blockSize l N < 2 ^ 63) {S I K B C R : String}
    (hn : Names S I K B C R) (fs : Files) {specB fullB inB : List Byte} (hs : fs S = some specB)
    (hi : fs I = some inB) {fs1 : Files} (hs1 : fs1 S = some fullB) (hi1 : fs1 I = some inB)
    (hfull : ∃ g : Graph, g.WF ∧ g.size ≤ 2 ^ 31 ∧ g.initialState = 0 ∧ g.dump = .ok (textOf fullB))
    (hdam : DamagedText (textOf fullB) (textOf specB))
    (hlen : 8 * inB.length * blockSize l N < 2 ^ 63)
    {ap boot : Nat} (h31 : inB.length / recordBytes ap * ap < 2 ^ 31) (hap : 0 < ap) (hap64 : ap < 2 ^ 64) (hb : 0 < boot)
    (hb64 : boot < 2 ^ 64) (hbud : δ.br + boot * δ.cmux + δ.ks + δ.ms < 2 ^ 30) {fs' : Files} {out : List Char}
    (hplain : RunHomfa L [] fs1 ["run", "plain", "--ap", toString ap, "--spec", S, "--in", I] (.ok (fs', out))) :
    (∀ r, Script L fs [["genkey", "--out", K], ["genbkey", "--key", K, "--out", B],
      ["enc", "--ap", toString ap, "--key", K, "--in", I, "--out", C],
      ["run", "offline", "--bkey", B, "--out", R, "--spec", S, "--in", C, "--bootstrapping-freq", toString boot],
      ["dec", "--key", K, "--in", R]] r → ∃ e, r = .error e) ∨
    AlwaysPrints L fs [["genkey", "--out", K], ["genbkey", "--key", K, "--out", B],
      ["enc", "--ap", toString ap, "--key", K, "--in", I, "--out", C],
      ["run", "offline", "--bkey", B, "--out", R, "--spec", S, "--in", C, "--bootstrapping-freq", toString boot],
      ["dec", "--key", K, "--in", R]] out [K, B, C, R] := by
  have hd := hn.distinct
  simp only [List.nodup_cons, List.mem_cons, List.not_mem_nil, or_false, not_or] at hd
  obtain ⟨⟨dSI, dSK, dSB, dSC, dSR⟩, -⟩ := hd
  have wS := hn.words S (by simp)
  have hp := (run_plain wS (hn.words I (by simp)) hs1 hi1 hap hap64).1 hplain
  have hplain : doRunPlain (textOf fullB) (some inB) ap = .ok out := by
    cases h : doRunPlain (textOf fullB) (some inB) ap with
    | error e => rw [h] at hp; cases hp
    | ok o => rw [h] at hp; cases hp; rfl
  rcases damaged_plain hfull hdam hap hplain with h | h | hplain
  · refine .inl fun r hr => script_refused hap hap64 (hn.words K (by simp)) (hn.words B (by simp)) (hn.words I (by simp))
      (hn.words C (by simp)) dSK dSB dSC (fun fs2 he r hr => ?_) hr
    cases r with
    | error e => exact ⟨e, rfl⟩
    | ok r =>
      cases hr with
      | call h1 h2 =>
        cases call_of_runs (main_offline (hn.words B (by simp)) (hn.words R (by simp)) wS (hn.words C (by simp)) hb hb64) h1
        obtain ⟨_, e, hg⟩ := exec_offline_nonempty h2
        rw [he, hs] at e
        cases e
        exact absurd (fromIstream_noSpecLine h) hg
  · refine .inl (fun r hr => script_refused hap hap64 (hn.words K (by simp)) (hn.words B (by simp)) (hn.words I (by simp))
      (hn.words C (by simp)) dSK dSB dSC (fun fs2 he r hr => ?_) hr)
    cases r with
    | error e => exact ⟨e, rfl⟩
    | ok r =>
      cases hr with
      | call h1 h2 =>
        cases call_of_runs (main_offline (hn.words B (by simp)) (hn.words R (by simp)) wS (hn.words C (by simp)) hb hb64) h1
        obtain ⟨_, g, e, hg⟩ := sources_offline h2
        rw [he, hs] at e
        cases e
        exact absurd hg (h g)
  · refine .inr ?_
    exact pipeline hL hn.usable fs hs hi hlen hap hap64 hplain _ (right_offline hL hN hl hbs hn.usable hap hb hb64 hbud h31 hplain)

/-- **C91**, the same with `run reverse`, unless not one spec line is left. -/
theorem C91_reverse (hL : L.Sound δ Enc) (hN : 0 < N) (hl : 0 < l) (hbs : blockSize l N < 2 ^ 63) {S I K B C R : String}
    (hn : Names S I K B C R) (fs : Files) {specB fullB inB : List Byte} (hs : fs S = some specB)
    (hi : fs I = some inB) {fs1 : Files} (hs1 : fs1 S = some fullB) (hi1 : fs1 I = some inB)
    (hfull : ∃ g : Graph, g.WF ∧ g.size ≤ 2 ^ 31 ∧ g.initialState = 0 ∧ g.dump = .ok (textOf fullB))
    (hdam : DamagedText (textOf fullB) (textOf specB))
    (hlen : 8 * inB.length * blockSize l N < 2 ^ 63) {ap freq boot : Nat} (hap : 0 < ap) (hap64 : ap < 2 ^ 64) (hf : 0 < freq)
    (hf64 : freq < 2 ^ 64) (hb : 0 < boot) (hb64 : boot < 2 ^ 64) (hbud : δ.br + boot * δ.cmux + δ.ks + δ.ms < 2 ^ 30) {fs' : Files}
    {out : List Char} (hplain : RunHomfa L [] fs1 ["run", "plain", "--ap", toString ap, "--spec", S, "--in", I] (.ok (fs', out))) :
    NoSpecLine (textOf specB) ∨
    (∀ r, Script L fs [["genkey", "--out", K], ["genbkey", "--key", K, "--out", B],
      ["enc", "--ap", toString ap, "--key", K, "--in", I, "--out", C],
      ["run", "reverse", "--bkey", B, "--out", R, "--spec", S, "--in", C, "--out-freq", toString freq,
        "--bootstrapping-freq", toString boot],
      ["dec", "--key", K, "--in", R]] r → ∃ e, r = .error e) ∨
    AlwaysPrints L fs [["genkey", "--out", K], ["genbkey", "--key", K, "--out", B],
      ["enc", "--ap", toString ap, "--key", K, "--in", I, "--out", C],
      ["run", "reverse", "--bkey", B, "--out", R, "--spec", S, "--in", C, "--out-freq", toString freq,
        "--bootstrapping-freq", toString boot],
      ["dec", "--key", K, "--in", R]] out [K, B, C, R] := by
  have hd := hn.distinct
  simp only [List.nodup_cons, List.mem_cons, List.not_mem_nil, or_false, not_or] at hd
  obtain ⟨⟨dSI, dSK, dSB, dSC, dSR⟩, -⟩ := hd
  have wS := hn.words S (by simp)
  have hp := (run_plain wS (hn.words I (by simp)) hs1 hi1 hap hap64).1 hplain
  have hplain : doRunPlain (textOf fullB) (some inB) ap = .ok out := by
    cases h : doRunPlain (textOf fullB) (some inB) ap with
    | error e => rw [h] at hp; cases hp
    | ok o => rw [h] at hp; cases hp; rfl
  rcases damaged_plain hfull hdam hap hplain with h | h | hplain
  · exact .inl h
  · refine .inr (.inl fun r hr => script_refused hap hap64 (hn.words K (by simp)) (hn.words B (by simp)) (hn.words I (by simp))
      (hn.words C (by simp)) dSK dSB dSC (fun fs2 he r hr => ?_) hr)
    cases r with
    | error e => exact ⟨e, rfl⟩
    | ok r =>
      cases hr with
      | call h1 h2 =>
        cases call_of_runs (main_reverse (hn.words B (by simp)) (hn.words R (by simp)) wS (hn.words C (by simp)) hf hf64 hb hb64) h1
        obtain ⟨_, g, e, hg⟩ := sources_reverse h2
        rw [he, hs] at e
        cases e
        exact absurd hg (h g)
  · refine .inr (.inr ?_)
    exact pipeline hL hn.usable fs hs hi hlen hap hap64 hplain _ (right_reverse hL hN hl hbs hn.usable hap hf hf64 hb hb64 hbud hplain)

/-- **C91**, the same with `run block`, unless not one spec line is left. -/
theorem C91_block (hL : L.Sound δ Enc) (hN : 0 < N) (hl : 0 < l) (hbs : blockSize l N < 2 ^ 63) {S I K B C R : String}
    (hn : Names S I K B C R) (fs : Files) {specB fullB inB : List Byte} (hs : fs S = some specB)
    (hi : fs I = some inB) {fs1 : Files} (hs1 : fs1 S = some fullB) (hi1 : fs1 I = some inB)
    (hfull : ∃ g : Graph, g.WF ∧ g.size ≤ 2 ^ 31 ∧ g.initialState = 0 ∧ g.dump = .ok (textOf fullB))
    (hdam : DamagedText (textOf fullB) (textOf specB)) (hne : inB ≠ [])
    (hlen : 8 * inB.length * blockSize l N < 2 ^ 63) {ap freq queue W : Nat} (hap : 0 < ap) (hap64 : ap < 2 ^ 64) (hf : 0 < freq)
    (hf64 : freq < 2 ^ 64) (hq : 0 < queue) (hqi : queue ≤ 2 ^ 31)
    (hW : ∀ g, Graph.fromIstream (textOf specB) = .ok g → LiveBits g W) (hWN : W < N) (hW31 : W < 31)
    (hbud : (queue + W) * δ.cmux + δ.cb < 2 ^ 29) {fs' : Files}
    {out : List Char} (hplain : RunHomfa L [] fs1 ["run", "plain", "--ap", toString ap, "--spec", S, "--in", I] (.ok (fs', out))) :
    NoSpecLine (textOf specB) ∨
    (∀ r, Script L fs [["genkey", "--out", K], ["genbkey", "--key", K, "--out", B],
      ["enc", "--ap", toString ap, "--key", K, "--in", I, "--out", C],
      ["run", "block", "--bkey", B, "--out", R, "--spec", S, "--in", C, "--out-freq", toString freq, "--queue-size", toString queue],
      ["dec", "--key", K, "--in", R]] r → ∃ e, r = .error e) ∨
    AlwaysPrints L fs [["genkey", "--out", K], ["genbkey", "--key", K, "--out", B],
      ["enc", "--ap", toString ap, "--key", K, "--in", I, "--out", C],
      ["run", "block", "--bkey", B, "--out", R, "--spec", S, "--in", C, "--out-freq", toString freq, "--queue-size", toString queue],
      ["dec", "--key", K, "--in", R]] out [K, B, C, R] := by
  have hd := hn.distinct
  simp only [List.nodup_cons, List.mem_cons, List.not_mem_nil, or_false, not_or] at hd
  obtain ⟨⟨dSI, dSK, dSB, dSC, dSR⟩, -⟩ := hd
  have wS := hn.words S (by simp)
  have hp := (run_plain wS (hn.words I (by simp)) hs1 hi1 hap hap64).1 hplain
  have hplain : doRunPlain (textOf fullB) (some inB) ap = .ok out := by
    cases h : doRunPlain (textOf fullB) (some inB) ap with
    | error e => rw [h] at hp; cases hp
    | ok o => rw [h] at hp; cases hp; rfl
  rcases damaged_plain hfull hdam hap hplain with h | h | hplain
  · exact .inl h
  · refine .inr (.inl fun r hr => script_refused hap hap64 (hn.words K (by simp)) (hn.words B (by simp)) (hn.words I (by simp))
      (hn.words C (by simp)) dSK dSB dSC (fun fs2 he r hr => ?_) hr)
    cases r with
    | error e => exact ⟨e, rfl⟩
    | ok r =>
      cases hr with
      | call h1 h2 =>
        cases call_of_runs (main_block (hn.words B (by simp)) (hn.words R (by simp)) wS (hn.words C (by simp)) hf hf64 hq (by omega)) h1
        obtain ⟨_, g, e, hg⟩ := sources_block h2
        rw [he, hs] at e
        cases e
        exact absurd hg (h g)
  · refine .inr (.inr ?_)
    exact pipeline hL hn.usable fs hs hi hlen hap hap64 hplain _ (right_block hL hN hl hbs hn.usable hne hap hf hf64 hq hqi hW hWN hW31 hbud hplain)

/-- **C91**, the same with `run flut`, unless not one spec line is left. -/
theorem C91_flut (hL : L.Sound δ Enc) (hN : 0 < N) (hl : 0 < l) (hbs : blockSize l N < 2 ^ 63) {S I K B C R : String}
    (hn : Names S I K B C R) (fs : Files) {specB fullB inB : List Byte} (hs : fs S = some specB)
    (hi : fs I = some inB) {fs1 : Files} (hs1 : fs1 S = some fullB) (hi1 : fs1 I = some inB)
    (hfull : ∃ g : Graph, g.WF ∧ g.size ≤ 2 ^ 31 ∧ g.initialState = 0 ∧ g.dump = .ok (textOf fullB))
    (hdam : DamagedText (textOf fullB) (textOf specB))
    (hlen : 8 * inB.length * blockSize l N < 2 ^ 63) {ap freq queue depth boot W : Nat} (hap : 0 < ap) (hap64 : ap < 2 ^ 64) (hf : 0 < freq)
    (hf64 : freq < 2 ^ 64) (hq : 0 < queue) (hq31 : queue < 31) (hd : 0 < depth) (hd31 : depth < 31) (hdN : 2 ^ depth ≤ N) (hb : 0 < boot)
    (hb64 : boot < 2 ^ 64) (hW : ∀ g, Graph.fromIstream (textOf specB) = .ok g → LiveMax g W) (hWd : W < 2 ^ depth)
    (hbud : W * 2 ^ (queue / 2) * flutErr δ W queue (boot - 1) + queue * δ.cmux + δ.ks + δ.ms < 2 ^ 30) {fs' : Files}
    {out : List Char} (hplain : RunHomfa L [] fs1 ["run", "plain", "--ap", toString ap, "--spec", S, "--in", I] (.ok (fs', out))) :
    NoSpecLine (textOf specB) ∨
    (∀ r, Script L fs [["genkey", "--out", K], ["genbkey", "--key", K, "--out", B],
      ["enc", "--ap", toString ap, "--key", K, "--in", I, "--out", C],
      ["run", "flut", "--bkey", B, "--out", R, "--spec", S, "--in", C, "--out-freq", toString freq, "--queue-size", toString queue,
        "--max-second-lut-depth", toString depth, "--bootstrapping-freq", toString boot],
      ["dec", "--key", K, "--in", R]] r → ∃ e, r = .error e) ∨
    AlwaysPrints L fs [["genkey", "--out", K], ["genbkey", "--key", K, "--out", B],
      ["enc", "--ap", toString ap, "--key", K, "--in", I, "--out", C],
      ["run", "flut", "--bkey", B, "--out", R, "--spec", S, "--in", C, "--out-freq", toString freq, "--queue-size", toString queue,
        "--max-second-lut-depth", toString depth, "--bootstrapping-freq", toString boot],
      ["dec", "--key", K, "--in", R]] out [K, B, C, R] := by
  have hd := hn.distinct
  simp only [List.nodup_cons, List.mem_cons, List.not_mem_nil, or_false, not_or] at hd
  obtain ⟨⟨dSI, dSK, dSB, dSC, dSR⟩, -⟩ := hd
  have wS := hn.words S (by simp)
  have hp := (run_plain wS (hn.words I (by simp)) hs1 hi1 hap hap64).1 hplain
  have hplain : doRunPlain (textOf fullB) (some inB) ap = .ok out := by
    cases h : doRunPlain (textOf fullB) (some inB) ap with
    | error e => rw [h] at hp; cases hp
    | ok o => rw [h] at hp; cases hp; rfl
  rcases damaged_plain hfull hdam hap hplain with h | h | hplain
  · exact .inl h
  · refine .inr (.inl fun r hr => script_refused hap hap64 (hn.words K (by simp)) (hn.words B (by simp)) (hn.words I (by simp))
      (hn.words C (by simp)) dSK dSB dSC (fun fs2 he r hr => ?_) hr)
    cases r with
    | error e => exact ⟨e, rfl⟩
    | ok r =>
      cases hr with
      | call h1 h2 =>
        cases call_of_runs (main_flut (hn.words B (by simp)) (hn.words R (by simp)) wS (hn.words C (by simp)) hf hf64 hq (by omega) hd (by omega) hb hb64) h1
        obtain ⟨_, g, e, hg⟩ := sources_flut h2
        rw [he, hs] at e
        cases e
        exact absurd hg (h g)
  · refine .inr (.inr ?_)
    exact pipeline hL hn.usable fs hs hi hlen hap hap64 hplain _ (right_flut hL hN hl hbs hn.usable hap hf hf64 hq hq31 hd hd31 hdN hb hb64 hW hWd hbud hplain)

end Homfa.Cli

namespace Homfa
open Spec

/-! ## Examples -/

/-- Three states; the second line damaged, the last one, all but the first, every line; and the damage nobody needs to notice. -/
example : Graph.fromIstream ">0\t0\t1\n1\t0 2 x\n2*\t0\t2\n".toList = .error .die ∧
    Graph.fromIstream ">0\t0\t1\n1\t0\t2\n2*\t0\t\n".toList = .error .outOfRange ∧
    Graph.fromIstream ">0\t0\t1\n".toList = .error .outOfRange ∧
    Graph.fromIstream "> 0\t0\t1\n\n?\n".toList = .ok emptyGraph ∧
    (do let g ← Graph.fromIstream ">0\t0\t1\n1*\t0\t1\n2\t0\n".toList; pure g.size) = .ok 2 := by decide +kernel

/-- the first of these is `exGraph` with a damaged line, as the theorems suppose -/
example : exGraph.dump = .ok ">0\t0\t1\n1\t0\t2\n2*\t0\t2\n".toList ∧ exGraph.initialState = 0 ∧
    DamagedText ">0\t0\t1\n1\t0\t2\n2*\t0\t2\n".toList ">0\t0\t1\n1\t0 2 x\n2*\t0\t2\n".toList :=
  ⟨by decide, rfl, [">0\t0\t1".toList, "1\t0\t2".toList, "2*\t0\t2".toList], [">0\t0\t1".toList, "1\t0 2 x".toList, "2*\t0\t2".toList],
    textLines_iff.2 (by decide), textLines_iff.2 (by decide), .keep (.lose (.junk (matchSpecLine_none.1 (by decide)) (.keep .nil)))⟩

/-- Two layouts of one spec. -/
example : ∃ ls ls' rows, TextLines ">0\t0\t1\n1*\t0\t1\n".toList ls ∧ TextLines "# two states\n>00   0, 01\n\n1* 0 1".toList ls' ∧ SpecRows 0 ls rows ∧
    SpecRows 0 ls' rows := by
  refine ⟨[">0\t0\t1".toList, "1*\t0\t1".toList], ["# two states".toList, ">00   0, 01".toList, [], "1* 0 1".toList], [⟨true, false, [0], [1]⟩, ⟨false, true, [0], [1]⟩],
    textLines_iff.2 (by decide), textLines_iff.2 (by decide), ?_, ?_⟩
  · refine .row (matchSpecLine_iff.1 (by decide : matchSpecLine _ = some (true, "0".toList, false, "0".toList, "1".toList))) (by decide) (by decide) ?_ ?_
      (.row (matchSpecLine_iff.1 (by decide : matchSpecLine _ = some (false, "1".toList, true, "0".toList, "1".toList))) (by decide) (by decide) ?_ ?_ (.nil _)) <;>
    exact (loadStates_iff (isTargetField_iff.1 (by decide))).1 (by decide)
  · refine .skip (matchSpecLine_none.1 (by decide)) (.row (matchSpecLine_iff.1 (by decide : matchSpecLine _ = some (true, "00".toList, false, "0,".toList, "01".toList)))
      (by decide) (by decide) ?_ ?_ (.skip (matchSpecLine_none.1 (by decide))
      (.row (matchSpecLine_iff.1 (by decide : matchSpecLine _ = some (false, "1".toList, true, "0".toList, "1".toList))) (by decide) (by decide) ?_ ?_ (.nil _)))) <;>
    exact (loadStates_iff (isTargetField_iff.1 (by decide))).1 (by decide)

/-- With another initial state than 0 damage can go unnoticed and change the language: here the line of the initial state is lost, and the last one. -/
theorem C91_initial_lost_wrong : let text := "0\t0\t0\n>1*\t1\t1\n".toList
    let text' := "0\t0\t0\n> 1*\t1\t1\n".toList
    ∃ g h : Graph, g.WF ∧ g.dump = .ok text ∧ DamagedText text text' ∧ Graph.fromIstream text = .ok g ∧ Graph.fromIstream text' = .ok h ∧
      g.accepts [] = .ok true ∧ h.accepts [] = .ok false := by
  intro text text'
  have key : (Graph.fromIstream text).bind (fun g => (Graph.fromIstream text').bind fun h =>
      .ok (decide (0 < g.size) && decide (g.dump = .ok text) && decide (g.accepts [] = .ok true) && decide (h.accepts [] = .ok false))) =
      .ok true := by decide +kernel
  obtain ⟨g, h1, key⟩ := Res.bind_eq_ok.1 key
  obtain ⟨h, h2, key⟩ := Res.bind_eq_ok.1 key
  simp only [Except.ok.injEq, Bool.and_eq_true, decide_eq_true_eq] at key
  obtain ⟨⟨⟨k1, k2⟩, k3⟩, k4⟩ := key
  exact ⟨g, h, wf_of_fromIstream h1 k1, k2, ⟨["0\t0\t0".toList, ">1*\t1\t1".toList], ["0\t0\t0".toList, "> 1*\t1\t1".toList],
    textLines_iff.2 (by decide), textLines_iff.2 (by decide), .keep (.lose (.junk (matchSpecLine_none.1 (by decide)) .nil))⟩, h1, h2, k3, k4⟩

/-- A spec with carriage returns, as some editors write it: `run plain` throws, `run reverse` runs with the automaton that rejects everything although
the spec accepts everything. -/
example : (∀ w, ∃ g, Graph.fromIstream ">0*\t0\t0\n".toList = .ok g ∧ g.accepts w = .ok true) ∧ NoSpecLine ">0*\t0\t0\r\n".toList := by
  refine ⟨fun w => ⟨Graph.built 0 [0] [(0, 0, 0)], by decide, ?_⟩, C91_crlf (text := ">0*\t0\t0\n".toList) (.inr (by decide))⟩
  have key : ∀ w, (Graph.built 0 [0] [(0, 0, 0)]).runWord 0 w = .ok 0 := by
    intro w
    induction w with
    | nil => rfl
    | cons b w ih =>
      unfold Graph.runWord at ih ⊢
      rw [List.foldlM_cons, show (Graph.built 0 [0] [(0, 0, 0)]).nextState 0 b = .ok 0 by cases b <;> rfl, Res.bind_ok]
      exact ih
  unfold Graph.accepts
  rw [show (Graph.built 0 [0] [(0, 0, 0)]).initialState = 0 from rfl, key, Res.bind_ok]
  rfl

end Homfa
