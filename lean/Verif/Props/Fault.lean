import Verif.Proof.Fault
import Verif.Props.Retry

/-!
# C74: writing fails

The disk is full or a device reports an error.  The program asserts that every byte was taken by the output stream, but nobody looks when the
last buffer is written.  So a command may end normally although its output lacks some bytes at the end.  Since the buffer is smaller than a
ciphertext and archives that lack their end are refused, no wrong verdict comes of it.
-/

namespace Homfa.Cli

variable {N n l : Nat} {L : Lib N n l} {δ : Noise} {Enc : L.Key → Gsw l N → Bool → Prop} {cap : Nat}

/-- **C74.** The commands of the README, each started when the one before has ended normally, while any writes fail: if all end normally, what is
printed is the verdict of `run plain`, or nothing (the standard output failed).  `cap` is the size of the buffer of an output stream.  Nothing is
assumed about the files `K`, `B`, `C` and `R` before. -/
theorem C74_offline (hL : L.Sound δ Enc) (hT : L.RejectsTruncated) (hN : 0 < N) (hl : 0 < l) (hbs : blockSize l N < 2 ^ 63)
    (hcap : cap < blockSize l N) {S I K B C R : String}
    (hn : Names S I K B C R) (fs : Files) {specB inB : List Byte} (hs : fs S = some specB) (hi : fs I = some inB)
    (hlen : 8 * inB.length * blockSize l N < 2 ^ 63)
    {ap boot : Nat} (h31 : inB.length / recordBytes ap * ap < 2 ^ 31) (hap : 0 < ap) (hap64 : ap < 2 ^ 64) (hb : 0 < boot)
    (hb64 : boot < 2 ^ 64) (hbud : δ.br + boot * δ.cmux + δ.ks + δ.ms < 2 ^ 30) {fs' : Files} {out : List Char}
    (hplain : RunHomfa L [] fs ["run", "plain", "--ap", toString ap, "--spec", S, "--in", I] (.ok (fs', out)))
    {fs1 : Files} {o : List Char} (h : FaultyScript L cap fs [["genkey", "--out", K], ["genbkey", "--key", K, "--out", B],
      ["enc", "--ap", toString ap, "--key", K, "--in", I, "--out", C],
      ["run", "offline", "--bkey", B, "--out", R, "--spec", S, "--in", C, "--bootstrapping-freq", toString boot],
      ["dec", "--key", K, "--in", R]] (.ok (fs1, o))) :
    (o = [] ∨ o = out) ∧ ∀ f, f ∉ [K, B, C, R] → fs1 f = fs f := by
  have wS := hn.words S (by simp)
  have hp := (run_plain wS (hn.words I (by simp)) hs hi hap hap64).1 hplain
  have hplain : doRunPlain (textOf specB) (some inB) ap = .ok out := by
    cases h : doRunPlain (textOf specB) (some inB) ap with
    | error e => rw [h] at hp; cases hp
    | ok o => rw [h] at hp; cases hp; rfl
  exact faulty_pipeline hL hT hcap hn fs hs hi hlen hap hap64 hplain (right_offline hL hN hl hbs hn.usable hap hb hb64 hbud h31 hplain)
    (main_offline (hn.words B (by simp)) (hn.words R (by simp)) wS (hn.words C (by simp)) hb hb64) (fun _ h => h) rfl reads_offline h

/-- **C74**, `run reverse` -/
theorem C74_reverse (hL : L.Sound δ Enc) (hT : L.RejectsTruncated) (hN : 0 < N) (hl : 0 < l) (hbs : blockSize l N < 2 ^ 63)
    (hcap : cap < blockSize l N) {S I K B C R : String}
    (hn : Names S I K B C R) (fs : Files) {specB inB : List Byte} (hs : fs S = some specB) (hi : fs I = some inB)
    (hlen : 8 * inB.length * blockSize l N < 2 ^ 63) {ap freq boot : Nat} (hap : 0 < ap) (hap64 : ap < 2 ^ 64) (hf : 0 < freq)
    (hf64 : freq < 2 ^ 64) (hb : 0 < boot) (hb64 : boot < 2 ^ 64) (hbud : δ.br + boot * δ.cmux + δ.ks + δ.ms < 2 ^ 30) {fs' : Files}
    {out : List Char} (hplain : RunHomfa L [] fs ["run", "plain", "--ap", toString ap, "--spec", S, "--in", I] (.ok (fs', out)))
    {fs1 : Files} {o : List Char} (h : FaultyScript L cap fs [["genkey", "--out", K], ["genbkey", "--key", K, "--out", B],
      ["enc", "--ap", toString ap, "--key", K, "--in", I, "--out", C],
      ["run", "reverse", "--bkey", B, "--out", R, "--spec", S, "--in", C, "--out-freq", toString freq,
        "--bootstrapping-freq", toString boot],
      ["dec", "--key", K, "--in", R]] (.ok (fs1, o))) :
    (o = [] ∨ o = out) ∧ ∀ f, f ∉ [K, B, C, R] → fs1 f = fs f := by
  have wS := hn.words S (by simp)
  have hp := (run_plain wS (hn.words I (by simp)) hs hi hap hap64).1 hplain
  have hplain : doRunPlain (textOf specB) (some inB) ap = .ok out := by
    cases h : doRunPlain (textOf specB) (some inB) ap with
    | error e => rw [h] at hp; cases hp
    | ok o => rw [h] at hp; cases hp; rfl
  exact faulty_pipeline hL hT hcap hn fs hs hi hlen hap hap64 hplain (right_reverse hL hN hl hbs hn.usable hap hf hf64 hb hb64 hbud hplain)
    (main_reverse (hn.words B (by simp)) (hn.words R (by simp)) wS (hn.words C (by simp)) hf hf64 hb hb64) (fun _ h => by simpa [Call.Writes, eq_comm] using h) rfl reads_reverse h

/-- **C74**, `run block` -/
theorem C74_block (hL : L.Sound δ Enc) (hT : L.RejectsTruncated) (hN : 0 < N) (hl : 0 < l) (hbs : blockSize l N < 2 ^ 63)
    (hcap : cap < blockSize l N) {S I K B C R : String}
    (hn : Names S I K B C R) (fs : Files) {specB inB : List Byte} (hs : fs S = some specB) (hi : fs I = some inB) (hne : inB ≠ [])
    (hlen : 8 * inB.length * blockSize l N < 2 ^ 63) {ap freq queue W : Nat} (hap : 0 < ap) (hap64 : ap < 2 ^ 64) (hf : 0 < freq)
    (hf64 : freq < 2 ^ 64) (hq : 0 < queue) (hqi : queue ≤ 2 ^ 31)
    (hW : ∀ g, Graph.fromIstream (textOf specB) = .ok g → LiveBits g W) (hWN : W < N) (hW31 : W < 31)
    (hbud : (queue + W) * δ.cmux + δ.cb < 2 ^ 29) {fs' : Files}
    {out : List Char} (hplain : RunHomfa L [] fs ["run", "plain", "--ap", toString ap, "--spec", S, "--in", I] (.ok (fs', out)))
    {fs1 : Files} {o : List Char} (h : FaultyScript L cap fs [["genkey", "--out", K], ["genbkey", "--key", K, "--out", B],
      ["enc", "--ap", toString ap, "--key", K, "--in", I, "--out", C],
      ["run", "block", "--bkey", B, "--out", R, "--spec", S, "--in", C, "--out-freq", toString freq, "--queue-size", toString queue],
      ["dec", "--key", K, "--in", R]] (.ok (fs1, o))) :
    (o = [] ∨ o = out) ∧ ∀ f, f ∉ [K, B, C, R] → fs1 f = fs f := by
  have wS := hn.words S (by simp)
  have hp := (run_plain wS (hn.words I (by simp)) hs hi hap hap64).1 hplain
  have hplain : doRunPlain (textOf specB) (some inB) ap = .ok out := by
    cases h : doRunPlain (textOf specB) (some inB) ap with
    | error e => rw [h] at hp; cases hp
    | ok o => rw [h] at hp; cases hp; rfl
  exact faulty_pipeline hL hT hcap hn fs hs hi hlen hap hap64 hplain (right_block hL hN hl hbs hn.usable hne hap hf hf64 hq hqi hW hWN hW31 hbud hplain)
    (main_block (hn.words B (by simp)) (hn.words R (by simp)) wS (hn.words C (by simp)) hf hf64 hq (by omega)) (fun _ h => h) rfl reads_block h

/-- **C74**, `run flut` -/
theorem C74_flut (hL : L.Sound δ Enc) (hT : L.RejectsTruncated) (hN : 0 < N) (hl : 0 < l) (hbs : blockSize l N < 2 ^ 63)
    (hcap : cap < blockSize l N) {S I K B C R : String}
    (hn : Names S I K B C R) (fs : Files) {specB inB : List Byte} (hs : fs S = some specB) (hi : fs I = some inB)
    (hlen : 8 * inB.length * blockSize l N < 2 ^ 63) {ap freq queue depth boot W : Nat} (hap : 0 < ap) (hap64 : ap < 2 ^ 64) (hf : 0 < freq)
    (hf64 : freq < 2 ^ 64) (hq : 0 < queue) (hq31 : queue < 31) (hd : 0 < depth) (hd31 : depth < 31) (hdN : 2 ^ depth ≤ N) (hb : 0 < boot)
    (hb64 : boot < 2 ^ 64) (hW : ∀ g, Graph.fromIstream (textOf specB) = .ok g → LiveMax g W) (hWd : W < 2 ^ depth)
    (hbud : W * 2 ^ (queue / 2) * flutErr δ W queue (boot - 1) + queue * δ.cmux + δ.ks + δ.ms < 2 ^ 30) {fs' : Files}
    {out : List Char} (hplain : RunHomfa L [] fs ["run", "plain", "--ap", toString ap, "--spec", S, "--in", I] (.ok (fs', out)))
    {fs1 : Files} {o : List Char} (h : FaultyScript L cap fs [["genkey", "--out", K], ["genbkey", "--key", K, "--out", B],
      ["enc", "--ap", toString ap, "--key", K, "--in", I, "--out", C],
      ["run", "flut", "--bkey", B, "--out", R, "--spec", S, "--in", C, "--out-freq", toString freq, "--queue-size", toString queue,
        "--max-second-lut-depth", toString depth, "--bootstrapping-freq", toString boot],
      ["dec", "--key", K, "--in", R]] (.ok (fs1, o))) :
    (o = [] ∨ o = out) ∧ ∀ f, f ∉ [K, B, C, R] → fs1 f = fs f := by
  have wS := hn.words S (by simp)
  have hp := (run_plain wS (hn.words I (by simp)) hs hi hap hap64).1 hplain
  have hplain : doRunPlain (textOf specB) (some inB) ap = .ok out := by
    cases h : doRunPlain (textOf specB) (some inB) ap with
    | error e => rw [h] at hp; cases hp
    | ok o => rw [h] at hp; cases hp; rfl
  exact faulty_pipeline hL hT hcap hn fs hs hi hlen hap hap64 hplain (right_flut hL hN hl hbs hn.usable hap hf hf64 hq hq31 hd hd31 hdN hb hb64 hW hWd hbud hplain)
    (main_flut (hn.words B (by simp)) (hn.words R (by simp)) wS (hn.words C (by simp)) hf hf64 hq (by omega) hd (by omega) hb hb64) (fun _ h => by simpa [Call.Writes, eq_comm] using h) rfl reads_flut h

/-- **C74.** A command that ends normally while writes fail: a run without failures could have ended with the same files, except that the end
of the file named by `--out`, at most the contents of a buffer, may be missing; and a beginning of the same text is printed. -/
theorem C74_normal_end {fs fs' : Files} {o : List Char} (c : Cmd) {w : List String} (hw : w ∈ c.names) {items : List Item}
    (hf : c.usage.Follows (fun f => (fs f).isSome) items) (h : RunFaulty L cap [] fs (w ++ line items) (.ok (fs', o))) :
    ∃ fs1 o1, RunHomfa L [] fs (w ++ line items) (.ok (fs1, o1)) ∧ o <+: o1 ∧
      (∀ f, f ≠ opt items "--out" → fs' f = fs1 f) ∧
      (fs' (opt items "--out") = fs1 (opt items "--out") ∨
        ∃ full p, fs1 (opt items "--out") = some full ∧ fs' (opt items "--out") = some p ∧ p <+: full ∧ full.length ≤ p.length + cap) := by
  have hc := C58_runs (fun _ => true) [] (by simp) c w hw items (Follows.mono hf)
  rw [List.nil_append] at hc
  obtain ⟨fs1, o1, h1, -, h2, h3, -⟩ := run_of_faulty hc h
  refine ⟨fs1, o1, h1, h2, fun f hne => ?_, ?_⟩
  · rcases h3 f with e | ⟨e, -⟩
    · exact e
    · exact absurd e (c.call_writes items f (.inl hne))
  · rcases h3 (opt items "--out") with e | ⟨-, e⟩
    · exact .inl e
    · exact .inr e

/-- **C74**: a run without failures is a special case -/
theorem C74_without_failures {fs : Files} {toks : List String} {r : Res (Files × List Char)} (h : RunHomfa L [] fs toks r)
    (hb : ∀ c, homfaMain (fun f => (fs f).isSome) toks = .ok (some c) → c.silent = true ∨ c.printsOnly = true) : RunFaulty L cap [] fs toks r := by
  cases h with
  | usage h => exact .usage h
  | fails h => exact .fails h
  | call h1 h2 => exact .call h1 (faulty_of_exec h2 (hb _ h1))

/-- the same for sequences of commands -/
theorem C74_script_without_failures {fs : Files} {lines : List (List String)} {r : Res (Files × List Char)} (h : Script L fs lines r)
    (hb : ∀ toks ∈ lines, ∀ (fs : Files) c, homfaMain (fun f => (fs f).isSome) toks = .ok (some c) → c.silent = true ∨ c.printsOnly = true) :
    FaultyScript L cap fs lines r := by
  induction h with
  | nil => exact .nil
  | stop h => exact .stop (C74_without_failures h (hb _ (by simp) _))
  | next h1 _ ih => exact .next (C74_without_failures h1 (hb _ (by simp) _)) (ih fun t ht => hb t (List.mem_cons_of_mem _ ht))

/-- **C74**, `genkey`: the file it leaves may be any beginning of a key that lacks at most a buffer, and nothing else. -/
theorem C74_genkey {fs : Files} {K : String} (hK : Word K) {r : Files × List Char} :
    RunFaulty L cap [] fs ["genkey", "--out", K] (.ok r) ↔
      ∃ q p, r = (fs.set K p, []) ∧ p <+: L.saveKey (L.newKey q) ∧ (L.saveKey (L.newKey q)).length ≤ p.length + cap := by
  have hm : homfaMain (fun f => (fs f).isSome) ["genkey", "--out", K] = .ok (some (.genkey K)) := by
    have := C58_runs (fun f => (fs f).isSome) [] (by simp) .genkey ["genkey"] (by simp [Cmd.names]) (optItems Cmd.genkey.usage [K])
      (follows_opts rfl (by decide) rfl fun p hp => by
        simp only [Cmd.usage, List.zip_cons_cons, List.zip_nil_right, List.mem_cons, List.not_mem_nil, or_false] at hp
        subst hp; exact hK.text _)
    exact this
  constructor
  · intro h
    cases h with
    | call h1 h2 =>
      rw [hm] at h1
      cases h1
      generalize hr : (Except.ok r : Res (Files × List Char)) = x at h2
      cases h2 with
      | stops => cases hr
      | prints h => cases h
      | genkey q hst =>
        obtain ⟨p, rfl, e⟩ := Res.map_eq_ok hr
        obtain ⟨a, b⟩ := stored_ok hst
        exact ⟨q, p, e.symm, a, b⟩
  · rintro ⟨q, p, rfl, h1, h2⟩
    exact .call hm (.genkey q (stored_of h1 h2))

/-- **C74**, failures are not always noticed: `genkey` can end normally and leave a file that `genbkey` refuses. -/
theorem C74_unnoticed (hT : L.RejectsTruncated) {fs : Files} {K B : String} (hK : Word K) (hB : Word B) (hcap : 0 < cap) (q : Nat)
    (hq : L.saveKey (L.newKey q) ≠ []) : ∃ fs1, RunFaulty L cap [] fs ["genkey", "--out", K] (.ok (fs1, [])) ∧
      ∀ r, ¬RunHomfa L [] fs1 ["genbkey", "--key", K, "--out", B] (.ok r) := by
  have hlen : 0 < (L.saveKey (L.newKey q)).length := List.length_pos_iff.2 hq
  have hpre := List.dropLast_prefix (L.saveKey (L.newKey q))
  have hdl := List.length_dropLast (xs := L.saveKey (L.newKey q))
  refine ⟨_, (C74_genkey hK).2 ⟨q, _, rfl, hpre, by omega⟩, fun r h => ?_⟩
  cases h with
  | call h1 h2 =>
    cases call_of_runs (main_genbkey hK hB) h1
    generalize hr : (Except.ok r : Res (Files × List Char)) = x at h2
    cases h2 with
    | genbkey =>
      obtain ⟨k, hk, -⟩ := Res.bind_eq_ok.1 hr.symm
      rw [Files.set_same] at hk
      obtain ⟨_, e, hk⟩ := readArchive_ok.1 hk
      cases e
      rw [hT.key _ _ hpre (fun e => by have := congrArg List.length e; omega)] at hk
      cases hk

/-- **C74**, the size of the buffer matters: with a buffer that holds a ciphertext, `enc` can end normally without the last bit, and the
commands that follow, ending normally, print the verdict on the bits before. -/
theorem C74_large_buffer (hL : L.Sound δ Enc) (hN : 0 < N) (hl : 0 < l) (hbs : blockSize l N < 2 ^ 63) (hcap : blockSize l N ≤ cap)
    {S I K B C R : String} (hn : Names S I K B C R) (fs : Files) {specB inB : List Byte} {q q' : Nat}
    (hs : fs S = some specB) (hi : fs I = some inB) (hK : fs K = some (L.saveKey (L.newKey q)))
    (hB : fs B = some (L.saveBKey (L.newBKey q' (L.newKey q)))) (hlen : 8 * inB.length * blockSize l N < 2 ^ 63)
    {g : Graph} (hg : Graph.fromIstream (textOf specB) = .ok g) (hg0 : 0 < g.size) {ap boot : Nat} (hap : 0 < ap) (hap64 : ap < 2 ^ 64)
    {rs : List (List Byte)} (hrs : ∀ r ∈ rs, r.length = recordBytes ap) (hin : inB = rs.flatten) (h31 : rs.length * ap < 2 ^ 31)
    (hb : 0 < boot) (hb64 : boot < 2 ^ 64) (hbud : δ.br + boot * δ.cmux + δ.ks + δ.ms < 2 ^ 30) :
    ∃ fs1 b, RunFaulty L cap [] fs ["enc", "--ap", toString ap, "--key", K, "--in", I, "--out", C] (.ok (fs1, [])) ∧
      g.accepts (rs.flatMap (recordBits ap)).dropLast = .ok b ∧
      AlwaysPrints L fs1 [
        ["run", "offline", "--bkey", B, "--out", R, "--spec", S, "--in", C, "--bootstrapping-freq", toString boot],
        ["dec", "--key", K, "--in", R]] (printResult b) [R] := by
  obtain ⟨wI, wK, wC⟩ : Word I ∧ Word K ∧ Word C := ⟨hn.words I (by simp), hn.words K (by simp), hn.words C (by simp)⟩
  have hd := hn.distinct
  simp only [List.nodup_cons, List.mem_cons, List.not_mem_nil, or_false, not_or] at hd
  obtain ⟨⟨dSI, dSK, dSB, dSC, dSR⟩, ⟨dIK, dIB, dIC, dIR⟩, ⟨dKB, dKC, dKR⟩, ⟨dBC, dBR⟩, dCR, -⟩ := hd
  have hrK : readArchive L.loadKey (fs K) = .ok (L.newKey q) := readArchive_ok.2 ⟨_, hK, hL.key _⟩
  obtain ⟨b, hacc⟩ := accepts_ok (wf_of_fromIstream hg hg0) (rs.flatMap (recordBits ap)).dropLast
  have henc := enc_eq (L.pair (L.newKey q) (L.newBKey q' (L.newKey q))) (fun _ => 0) hap hrs
  rw [← hin] at henc
  have hwl : (rs.flatMap (recordBits ap)).length ≤ 8 * inB.length := by
    have := bits_length (ap := ap) (bytes := inB) ⟨rs, [], by rw [List.append_nil]; exact hin, hrs, by simp only [List.length_nil, recordBytes]; omega, rfl⟩
    rw [List.length_append] at this
    exact le_trans (Nat.le_add_right _ _) this
  have hw31 : (rs.flatMap (recordBits ap)).length < 2 ^ 31 := by simpa [List.length_flatMap, recordBits] using h31
  clear h31
  generalize rs.flatMap (recordBits ap) = w at *
  set P := L.pair (L.newKey q) (L.newBKey q' (L.newKey q)) with hP
  have hpre : (encryptions P (fun _ => 0) 0 w.dropLast).flatMap saveGsw <+: (encryptions P (fun _ => 0) 0 w).flatMap saveGsw := by
    rw [List.dropLast_eq_take, encryptions_take]
    conv_rhs => rw [← List.take_append_drop (w.length - 1) (encryptions _ _ 0 w), List.flatMap_append]
    exact List.prefix_append _ _
  have hmain : homfaMain (fun f => (fs f).isSome) ["enc", "--ap", toString ap, "--key", K, "--in", I, "--out", C] =
      .ok (some (.enc K I C ap)) := by
    have := C58_runs (fun f => (fs f).isSome) [] (by simp) .enc ["enc"] (by simp [Cmd.names]) (optItems Cmd.enc.usage [toString ap, K, I, C])
      (follows_opts rfl (by decide) rfl fun p hp => by
        simp only [Cmd.usage, List.zip_cons_cons, List.zip_nil_right, List.mem_cons, List.not_mem_nil, or_false] at hp
        rcases hp with rfl | rfl | rfl | rfl
        · exact positive_ok hap hap64 _
        · exact wK.file hK
        · exact wI.file hi
        · exact wC.text _)
    rw [show Cmd.enc.call (optItems Cmd.enc.usage [toString ap, K, I, C]) = .enc K I C (Nat.ofDigitChars 10 (toString ap).toList 0) from rfl,
      ofDigits_toString] at this
    exact this
  have hdl := List.length_dropLast (xs := w)
  have hle : ((encryptions P (fun _ => 0) 0 w).flatMap saveGsw).length = w.length * blockSize l N := by
    rw [length_file, encryptions_length]
  have hle' : ((encryptions P (fun _ => 0) 0 w.dropLast).flatMap saveGsw).length = w.dropLast.length * blockSize l N := by
    rw [length_file, encryptions_length]
  refine ⟨(fs.set C []).set C _, b, .call hmain (.enc (fun _ => 0) hrK (b := (encryptions P (fun _ => 0) 0 w).flatMap saveGsw) ?_
    (stored_of hpre ?_)), hacc, ?_⟩
  · rw [Files.set_other _ _ dIC, hi]; exact henc
  · rw [hle, hle', hdl]
    rcases Nat.eq_zero_or_pos w.length with e | e
    · rw [e]; omega
    · obtain ⟨k, hk⟩ : ∃ k, w.length = k + 1 := ⟨w.length - 1, by omega⟩
      rw [hk, Nat.add_sub_cancel, Nat.add_mul]; omega
  · refine prints_of_ctxts hL hN hl hbs hn _ ?_ ?_ ?_ (fun _ => 0) (Files.set_same _ _ _) (lt_of_le_of_lt hpre.length_le ?_) ?_ hg hacc hb hb64 hbud
    · rw [Files.set_other _ _ dSC, Files.set_other _ _ dSC]; exact hs
    · rw [Files.set_other _ _ dKC, Files.set_other _ _ dKC]; exact hK
    · rw [Files.set_other _ _ dBC, Files.set_other _ _ dBC]; exact hB
    · rw [hle]
      exact lt_of_le_of_lt (Nat.mul_le_mul_right _ hwl) hlen
    · omega

/-! ## The hypotheses are met -/

/-- With a buffer of 100 bytes, where a ciphertext has 512: the README's commands print 1 or nothing, and there is a run that prints 1. -/
example : ∃ L : Lib 16 2 1, let cmds := [["genkey", "--out", "sk"], ["genbkey", "--key", "sk", "--out", "bk"],
      ["enc", "--ap", "5", "--key", "sk", "--in", "in", "--out", "ctxt"],
      ["run", "offline", "--bkey", "bk", "--out", "res", "--spec", "a.spec", "--in", "ctxt", "--bootstrapping-freq", "30"],
      ["dec", "--key", "sk", "--in", "res"]]
    (∀ fs' o, FaultyScript L 100 exFiles cmds (.ok (fs', o)) → o = [] ∨ o = ['1']) ∧
    ∃ fs', FaultyScript L 100 exFiles cmds (.ok (fs', ['1'])) := by
  obtain ⟨φ, hφ⟩ := exists_numbering 16
  have hL := toyLib_sound (n := 2) (l := 1) (by omega) (by omega) hφ
  let L := toyLib 16 2 1 φ
  have hp : RunHomfa L [] exFiles ["run", "plain", "--ap", toString 5, "--spec", "a.spec", "--in", "in"] (.ok (exFiles, ['1'])) := by
    refine (run_plain (specB := exSpec.map fun c => BitVec.ofNat 8 c.toNat) (inB := [0x1f#8, 0xe1#8, 0x10#8]) (by simp [Word])
      (by simp [Word]) rfl rfl (by omega) (by omega)).2 ?_
    have : doRunPlain (textOf (exSpec.map fun c => BitVec.ofNat 8 c.toNat)) (some [0x1f#8, 0xe1#8, 0x10#8]) 5 = .ok ['1'] := by
      decide +kernel
    rw [this]
    rfl
  refine ⟨L, fun fs' o h => ?_, ?_⟩
  · exact (C74_offline hL toyLib_rejects (by omega) (by omega) (by decide) (by decide) exNames exFiles
      (specB := exSpec.map fun c => BitVec.ofNat 8 c.toNat) (inB := [0x1f#8, 0xe1#8, 0x10#8]) rfl rfl (by decide) (by decide) (by omega) (by omega)
      (boot := 30) (by omega) (by omega) (by decide) hp h).1
  · obtain ⟨⟨r, hr⟩, hall⟩ := C61_offline hL (by omega) (by omega) (by decide) exNames exFiles
      (specB := exSpec.map fun c => BitVec.ofNat 8 c.toNat) (inB := [0x1f#8, 0xe1#8, 0x10#8]) rfl rfl (by decide) (by decide) (by omega) (by omega)
      (boot := 30) (by omega) (by omega) (by decide) hp
    obtain ⟨fs', rfl, -⟩ := hall r hr
    refine ⟨fs', C74_script_without_failures hr fun toks ht fs c hc => ?_⟩
    simp only [List.mem_cons, List.not_mem_nil, or_false] at ht
    have hw : ∀ f ∈ ["a.spec", "in", "sk", "bk", "ctxt", "res"], Word f := exNames.words
    rcases ht with rfl | rfl | rfl | rfl | rfl
    · cases call_of_runs (main_genkey (hw "sk" (by simp))) hc; exact .inl rfl
    · cases call_of_runs (main_genbkey (hw "sk" (by simp)) (hw "bk" (by simp))) hc; exact .inl rfl
    · cases call_of_runs (main_enc (ap := 5) (hw "sk" (by simp)) (hw "in" (by simp)) (hw "ctxt" (by simp)) (by omega) (by omega)) hc; exact .inl rfl
    · cases call_of_runs (main_offline (boot := 30) (hw "bk" (by simp)) (hw "res" (by simp)) (hw "a.spec" (by simp)) (hw "ctxt" (by simp)) (by omega) (by omega)) hc; exact .inl rfl
    · cases call_of_runs (main_dec (hw "sk" (by simp)) (hw "res" (by simp))) hc; exact .inr rfl

/-- With a buffer of a single byte `genkey` can leave a file that `genbkey` refuses. -/
example : ∃ (L : Lib 16 2 1) (fs1 : Files), RunFaulty L 1 [] exFiles ["genkey", "--out", "sk"] (.ok (fs1, [])) ∧
    ∀ r, ¬RunHomfa L [] fs1 ["genbkey", "--key", "sk", "--out", "bk"] (.ok r) := by
  obtain ⟨φ, -⟩ := exists_numbering 16
  exact ⟨toyLib 16 2 1 φ, C74_unnoticed toyLib_rejects (exNames.words "sk" (by simp)) (exNames.words "bk" (by simp)) (by omega) 0
    (by simp [toyLib])⟩

/-- With a buffer of 512 bytes, a ciphertext: `enc` loses the last bit of `1f e1 10` and the commands print 0 where `run plain` prints 1. -/
example : ∃ (L : Lib 16 2 1) (fs1 fs2 : Files),
    RunHomfa L [] fs1 ["run", "plain", "--ap", "5", "--spec", "a.spec", "--in", "in"] (.ok (fs1, ['1'])) ∧
    RunFaulty L 512 [] fs1 ["enc", "--ap", "5", "--key", "sk", "--in", "in", "--out", "ctxt"] (.ok (fs2, [])) ∧
    AlwaysPrints L fs2 [
      ["run", "offline", "--bkey", "bk", "--out", "res", "--spec", "a.spec", "--in", "ctxt", "--bootstrapping-freq", "30"],
      ["dec", "--key", "sk", "--in", "res"]] ['0'] ["res"] := by
  obtain ⟨φ, hφ⟩ := exists_numbering 16
  have hL := toyLib_sound (n := 2) (l := 1) (by omega) (by omega) hφ
  let L := toyLib 16 2 1 φ
  let fs1 : Files := (exFiles.set "sk" (L.saveKey (L.newKey 0))).set "bk" (L.saveBKey (L.newBKey 0 (L.newKey 0)))
  have hspec : ∃ g, Graph.fromIstream (textOf (exSpec.map fun c => BitVec.ofNat 8 c.toNat)) = .ok g ∧ 0 < g.size ∧
      g.accepts (([[0x1f#8], [0xe1#8], [0x10#8]] : List (List Byte)).flatMap (recordBits 5)).dropLast = .ok false := by
    have : (Graph.fromIstream (textOf (exSpec.map fun c => BitVec.ofNat 8 c.toNat))).bind
      (fun g => .ok (decide (0 < g.size) && decide (g.accepts (([[0x1f#8], [0xe1#8], [0x10#8]] : List (List Byte)).flatMap
        (recordBits 5)).dropLast = .ok false))) = .ok true := by decide +kernel
    obtain ⟨g, h1, h2⟩ := Res.bind_eq_ok.1 this
    simp only [Except.ok.injEq, Bool.and_eq_true, decide_eq_true_eq] at h2
    exact ⟨g, h1, h2⟩
  obtain ⟨g, hg, hg0, hacc⟩ := hspec
  obtain ⟨fs2, b, h1, h2, h3⟩ := C74_large_buffer (L := L) (cap := 512) hL (by omega) (by omega) (by decide) (by decide) exNames fs1
    (specB := exSpec.map fun c => BitVec.ofNat 8 c.toNat) (inB := [0x1f#8, 0xe1#8, 0x10#8]) (q := 0) (q' := 0) rfl rfl rfl rfl (by decide)
    hg hg0 (ap := 5) (boot := 30) (rs := [[0x1f#8], [0xe1#8], [0x10#8]]) (by omega) (by omega) (by simp [recordBytes]) rfl (by decide)
    (by omega) (by omega) (by decide)
  rw [hacc] at h2
  cases h2
  refine ⟨L, fs1, fs2, ?_, h1, h3⟩
  refine (run_plain (specB := exSpec.map fun c => BitVec.ofNat 8 c.toNat) (inB := [0x1f#8, 0xe1#8, 0x10#8]) (ap := 5) (by simp [Word])
    (by simp [Word]) rfl rfl (by omega) (by omega)).2 ?_
  have : doRunPlain (textOf (exSpec.map fun c => BitVec.ofNat 8 c.toNat)) (some [0x1f#8, 0xe1#8, 0x10#8]) 5 = .ok ['1'] := by
    decide +kernel
  rw [this]
  rfl

end Homfa.Cli
