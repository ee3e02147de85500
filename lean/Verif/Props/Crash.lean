import Verif.Proof.Crash
import Verif.Props.Shell

/-!
# C66: commands that are interrupted

Every command of the sequence genkey, genbkey, enc, run, dec may end normally or be stopped at any moment (`CrashScript`); the user goes on
with the next command all the same.  The files the commands create do not exist beforehand.

`w` is the sequence of bits in the input file; `HoldsBits` is total (`holdsBits_exists`), so nothing is assumed of that file but its size.
-/

namespace Homfa.Cli

variable {N n l : Nat} {L : Lib N n l} {δ : Noise} {Enc : L.Key → Gsw l N → Bool → Prop}

/-- **C66.** Whatever is interrupted, the sequence genkey, genbkey, enc, `run offline`, dec prints nothing, or the verdict on a prefix of the
input; if `enc` ended normally, the verdict on the input. -/
theorem C66_offline (hL : L.Sound δ Enc) (hT : L.RejectsTruncated) (hN : 0 < N) (hl : 0 < l) (hbs : blockSize l N < 2 ^ 63)
    {S I K B C R : String} (hn : Names S I K B C R) (fs : Files) (hnew : ∀ f ∈ [K, B, C, R], fs f = none) {specB inB : List Byte}
    (hs : fs S = some specB) (hi : fs I = some inB) (hlen : 8 * inB.length * blockSize l N < 2 ^ 63) {g : Graph}
    (hg : Graph.fromIstream (textOf specB) = .ok g) (hg0 : 0 < g.size) {ap boot : Nat} (hap : 0 < ap) (hap64 : ap < 2 ^ 64) {w : List Bool}
    (hw : HoldsBits ap inB w) (h31 : w.length < 2 ^ 31) (hb : 0 < boot) (hb64 : boot < 2 ^ 64) (hbud : δ.br + boot * δ.cmux + δ.ks + δ.ms < 2 ^ 30)
    {ends : List Bool} {fs' : Files} {out : List Char}
    (h : CrashScript L fs [["genkey", "--out", K], ["genbkey", "--key", K, "--out", B],
      ["enc", "--ap", toString ap, "--key", K, "--in", I, "--out", C],
      ["run", "offline", "--bkey", B, "--out", R, "--spec", S, "--in", C, "--bootstrapping-freq", toString boot],
      ["dec", "--key", K, "--in", R]] ends (fs', out)) :
    out = [] ∨ ∃ m b, g.accepts (w.take m) = .ok b ∧ out = printResult b ∧ (ends[2]? = some true → w.take m = w) :=
  crash_pipeline hL hT (by unfold blockSize; positivity) hn fs hnew hs hi hlen hap hap64 hw
    (main_offline (hn.words B (by simp)) (hn.words R (by simp)) (hn.words S (by simp)) (hn.words C (by simp)) hb hb64)
    (good_offline hL hN hl hbs hg hg0 hb hbud h31) h

/-- **C66**, `run reverse` -/
theorem C66_reverse (hL : L.Sound δ Enc) (hT : L.RejectsTruncated) (hN : 0 < N) (hl : 0 < l) (hbs : blockSize l N < 2 ^ 63)
    {S I K B C R : String} (hn : Names S I K B C R) (fs : Files) (hnew : ∀ f ∈ [K, B, C, R], fs f = none) {specB inB : List Byte}
    (hs : fs S = some specB) (hi : fs I = some inB) (hlen : 8 * inB.length * blockSize l N < 2 ^ 63) {g : Graph}
    (hg : Graph.fromIstream (textOf specB) = .ok g) (hg0 : 0 < g.size) {ap freq boot : Nat} (hap : 0 < ap) (hap64 : ap < 2 ^ 64)
    {w : List Bool} (hw : HoldsBits ap inB w) (hf : 0 < freq) (hf64 : freq < 2 ^ 64) (hb : 0 < boot) (hb64 : boot < 2 ^ 64)
    (hbud : δ.br + boot * δ.cmux + δ.ks + δ.ms < 2 ^ 30) {ends : List Bool} {fs' : Files} {out : List Char}
    (h : CrashScript L fs [["genkey", "--out", K], ["genbkey", "--key", K, "--out", B],
      ["enc", "--ap", toString ap, "--key", K, "--in", I, "--out", C],
      ["run", "reverse", "--bkey", B, "--out", R, "--spec", S, "--in", C, "--out-freq", toString freq,
        "--bootstrapping-freq", toString boot],
      ["dec", "--key", K, "--in", R]] ends (fs', out)) :
    out = [] ∨ ∃ m b, g.accepts (w.take m) = .ok b ∧ out = printResult b ∧ (ends[2]? = some true → w.take m = w) :=
  crash_pipeline hL hT (by unfold blockSize; positivity) hn fs hnew hs hi hlen hap hap64 hw
    (main_reverse (hn.words B (by simp)) (hn.words R (by simp)) (hn.words S (by simp)) (hn.words C (by simp)) hf hf64 hb hb64)
    (good_reverse hL hN hl hbs hg hg0 hb hbud) h

/-- **C66**, `run block` -/
theorem C66_block (hL : L.Sound δ Enc) (hT : L.RejectsTruncated) (hN : 0 < N) (hl : 0 < l) (hbs : blockSize l N < 2 ^ 63)
    {S I K B C R : String} (hn : Names S I K B C R) (fs : Files) (hnew : ∀ f ∈ [K, B, C, R], fs f = none) {specB inB : List Byte}
    (hs : fs S = some specB) (hi : fs I = some inB) (hlen : 8 * inB.length * blockSize l N < 2 ^ 63) {g : Graph}
    (hg : Graph.fromIstream (textOf specB) = .ok g) (hg0 : 0 < g.size) {ap freq queue W : Nat} (hap : 0 < ap) (hap64 : ap < 2 ^ 64)
    {w : List Bool} (hw : HoldsBits ap inB w) (hf : 0 < freq) (hf64 : freq < 2 ^ 64) (hq : 0 < queue) (hqi : queue ≤ 2 ^ 31)
    (hW : LiveBits g W) (hWN : W < N) (hW31 : W < 31) (hbud : (queue + W) * δ.cmux + δ.cb < 2 ^ 29)
    {ends : List Bool} {fs' : Files} {out : List Char}
    (h : CrashScript L fs [["genkey", "--out", K], ["genbkey", "--key", K, "--out", B],
      ["enc", "--ap", toString ap, "--key", K, "--in", I, "--out", C],
      ["run", "block", "--bkey", B, "--out", R, "--spec", S, "--in", C, "--out-freq", toString freq, "--queue-size", toString queue],
      ["dec", "--key", K, "--in", R]] ends (fs', out)) :
    out = [] ∨ ∃ m b, g.accepts (w.take m) = .ok b ∧ out = printResult b ∧ (ends[2]? = some true → w.take m = w) :=
  crash_pipeline hL hT (by unfold blockSize; positivity) hn fs hnew hs hi hlen hap hap64 hw
    (main_block (hn.words B (by simp)) (hn.words R (by simp)) (hn.words S (by simp)) (hn.words C (by simp)) hf hf64 hq (by omega))
    (good_block hL hN hl hbs hg hg0 hq hW hWN hW31 hbud hqi) h

/-- **C66**, `run flut`.  It need not be assumed that the run succeeds: when there are too many live states it exits with a message and nothing
is printed. -/
theorem C66_flut (hL : L.Sound δ Enc) (hT : L.RejectsTruncated) (hN : 0 < N) (hl : 0 < l) (hbs : blockSize l N < 2 ^ 63)
    {S I K B C R : String} (hn : Names S I K B C R) (fs : Files) (hnew : ∀ f ∈ [K, B, C, R], fs f = none) {specB inB : List Byte}
    (hs : fs S = some specB) (hi : fs I = some inB) (hlen : 8 * inB.length * blockSize l N < 2 ^ 63) {g : Graph}
    (hg : Graph.fromIstream (textOf specB) = .ok g) (hg0 : 0 < g.size) {ap freq queue depth boot W : Nat} (hap : 0 < ap) (hap64 : ap < 2 ^ 64)
    {w : List Bool} (hw : HoldsBits ap inB w) (hf : 0 < freq) (hf64 : freq < 2 ^ 64) (hq : 0 < queue) (hq31 : queue < 31) (hd : 0 < depth)
    (hd31 : depth < 31) (hdN : 2 ^ depth ≤ N) (hb : 0 < boot) (hb64 : boot < 2 ^ 64) (hW : LiveMax g W)
    (hbud : W * 2 ^ (queue / 2) * flutErr δ W queue (boot - 1) + queue * δ.cmux + δ.ks + δ.ms < 2 ^ 30)
    {ends : List Bool} {fs' : Files} {out : List Char}
    (h : CrashScript L fs [["genkey", "--out", K], ["genbkey", "--key", K, "--out", B],
      ["enc", "--ap", toString ap, "--key", K, "--in", I, "--out", C],
      ["run", "flut", "--bkey", B, "--out", R, "--spec", S, "--in", C, "--out-freq", toString freq, "--queue-size", toString queue,
        "--max-second-lut-depth", toString depth, "--bootstrapping-freq", toString boot],
      ["dec", "--key", K, "--in", R]] ends (fs', out)) :
    out = [] ∨ ∃ m b, g.accepts (w.take m) = .ok b ∧ out = printResult b ∧ (ends[2]? = some true → w.take m = w) :=
  crash_pipeline hL hT (by unfold blockSize; positivity) hn fs hnew hs hi hlen hap hap64 hw
    (main_flut (hn.words B (by simp)) (hn.words R (by simp)) (hn.words S (by simp)) (hn.words C (by simp)) hf hf64 hq (by omega) hd (by omega)
      hb hb64)
    (good_flut hL hN hl hbs hg hg0 hq hq31 hd31 hdN hb hW hbud) h

/-- **C66**: what a command that ends normally leaves behind is one of the states it may be stopped in -/
theorem C66_end_is_a_moment {fs : Files} {toks : List String} {c : Call} (hc : homfaMain (fun f => (fs f).isSome) toks = .ok (some c))
    {stdin : List Char} {r : Files × List Char} (h : RunHomfa L stdin fs toks (.ok r)) : RunInterrupted L fs toks r := by
  generalize hr : (Except.ok r : Res (Files × List Char)) = x at h
  cases h with
  | call h1 h2 => subst hr; exact .call h1 (interrupted_of_exec h2)
  | usage h1 => rw [hc] at h1; cases h1
  | fails h1 => cases hr

/-- whatever bits the ciphertext file holds, `run offline` and `dec` print the verdict on them -/
theorem prints_of_ctxts (hL : L.Sound δ Enc) (hN : 0 < N) (hl : 0 < l) (hbs : blockSize l N < 2 ^ 63)
    {S I K B C R : String} (hn : Names S I K B C R) (fs : Files) {specB : List Byte} {q q' : Nat}
    (hs : fs S = some specB) (hK : fs K = some (L.saveKey (L.newKey q)))
    (hB : fs B = some (L.saveBKey (L.newBKey q' (L.newKey q)))) (rand : Nat → Nat) {v : List Bool}
    (hC : fs C = some ((encryptions (L.pair (L.newKey q) (L.newBKey q' (L.newKey q))) rand 0 v).flatMap saveGsw))
    (hflen : ((encryptions (L.pair (L.newKey q) (L.newBKey q' (L.newKey q))) rand 0 v).flatMap saveGsw).length < 2 ^ 63)
    (h31 : v.length < 2 ^ 31) {g : Graph}
    (hg : Graph.fromIstream (textOf specB) = .ok g) {b : Bool} (hacc : g.accepts v = .ok b) {boot : Nat}
    (hb : 0 < boot) (hb64 : boot < 2 ^ 64) (hbud : δ.br + boot * δ.cmux + δ.ks + δ.ms < 2 ^ 30) :
    AlwaysPrints L fs [
      ["run", "offline", "--bkey", B, "--out", R, "--spec", S, "--in", C, "--bootstrapping-freq", toString boot],
      ["dec", "--key", K, "--in", R]] (printResult b) [R] := by
  obtain ⟨wS, wI, wK, wB, wC, wR⟩ : Word S ∧ Word I ∧ Word K ∧ Word B ∧ Word C ∧ Word R :=
    ⟨hn.words S (by simp), hn.words I (by simp), hn.words K (by simp), hn.words B (by simp), hn.words C (by simp), hn.words R (by simp)⟩
  have hd := hn.distinct
  simp only [List.nodup_cons, List.mem_cons, List.not_mem_nil, or_false, not_or] at hd
  obtain ⟨⟨dSI, dSK, dSB, dSC, dSR⟩, ⟨dIK, dIB, dIC, dIR⟩, ⟨dKB, dKC, dKR⟩, ⟨dBC, dBR⟩, dCR, -⟩ := hd
  have hbs0 : 0 < blockSize l N := by unfold blockSize; positivity
  obtain ⟨file', e1, e2⟩ := C36_offline (hL.pair q q') hN hl hbs rand _ _ 1 (by omega) boot hb hbud _ (plain_bitByte hg hacc)
  rw [enc_bitByte] at e1
  cases e1
  obtain ⟨-, e3⟩ := e2 hflen
  replace e3 := e3 (by
    rw [length_file, encryptions_length]
    exact Nat.mul_lt_mul_of_pos_right h31 hbs0)
  obtain ⟨⟨pre, f1⟩, f2⟩ := fetch_reversed hbs0 hbs hflen
  have hrun := fun r => run_offline (L := L) (r := r) (fs := fs) wB wR wS wC hL.bkey
    hB hs hC hb hb64
  have hall : ∀ r, RunHomfa L [] fs
      ["run", "offline", "--bkey", B, "--out", R, "--spec", S, "--in", C, "--bootstrapping-freq", toString boot] r →
      ∃ c, r = .ok (fs.set R (L.saveRes c), []) ∧ doDec (L.client (L.newKey q)) c = printResult b := by
    intro r hr
    obtain ⟨q2, hq2, rfl⟩ := (hrun r).1 hr
    obtain ⟨pre, hrd, rfl⟩ := f2 q2 hq2
    obtain ⟨c, hc1, hc2⟩ := e3 pre _ hrd
    refine ⟨c, ?_, hc2⟩
    rw [← C60_offline (server_same (L.newKey q) _)] at hc1
    show (doRunOffline _ _ _ _ _ _).map _ = _
    rw [hc1]
    rfl
  have hdec := fun c r => run_dec (L := L) (r := r) (fs := fs.set R (L.saveRes c)) (k := L.newKey q) (c := c) wK wR hL.key hL.res
    (by rw [Files.set_other _ _ dKR]; exact hK) (Files.set_same _ _ _)
  constructor
  · have hex := (hrun _).2 ⟨_, f1, rfl⟩
    obtain ⟨c, hc, -⟩ := hall _ hex
    rw [hc] at hex
    exact ⟨_, .next hex (.next ((hdec c _).2 rfl) .nil)⟩
  · intro r hr
    cases hr with
    | stop h => obtain ⟨c, h, -⟩ := hall _ h; cases h
    | next h hr =>
    obtain ⟨c, h, hc⟩ := hall _ h
    cases h
    cases hr with
    | stop h => have := (hdec c _).1 h; cases this
    | next h hr =>
    have := (hdec c _).1 h
    cases this
    cases hr with
    | nil =>
      refine ⟨fs.set R (L.saveRes c), ?_, fun f hf => ?_⟩
      · show (Except.ok (_, ([] : List Char) ++ (doDec (L.client (L.newKey q)) c ++ [])) : Res (Files × List Char)) = _
        rw [hc, List.nil_append, List.append_nil]
      simp only [List.mem_cons, List.not_mem_nil, or_false] at hf
      exact Files.set_other _ _ hf

/-- **C66**, the exception is real: `enc` can be stopped after any number `m` of bits so that the commands that follow end normally and print
the verdict on the first `m` bits. -/
theorem C66_enc_unnoticed (hL : L.Sound δ Enc) (hN : 0 < N) (hl : 0 < l) (hbs : blockSize l N < 2 ^ 63)
    {S I K B C R : String} (hn : Names S I K B C R) (fs : Files) {specB inB : List Byte} {q q' : Nat}
    (hs : fs S = some specB) (hi : fs I = some inB) (hK : fs K = some (L.saveKey (L.newKey q)))
    (hB : fs B = some (L.saveBKey (L.newBKey q' (L.newKey q)))) (hlen : 8 * inB.length * blockSize l N < 2 ^ 63) {g : Graph}
    (hg : Graph.fromIstream (textOf specB) = .ok g) (hg0 : 0 < g.size) {ap boot : Nat} (hap : 0 < ap) (hap64 : ap < 2 ^ 64) {w : List Bool}
    (hw : HoldsBits ap inB w) (h31 : w.length < 2 ^ 31) (hb : 0 < boot) (hb64 : boot < 2 ^ 64) (hbud : δ.br + boot * δ.cmux + δ.ks + δ.ms < 2 ^ 30) (m : Nat) :
    ∃ fs1 b, RunInterrupted L fs ["enc", "--ap", toString ap, "--key", K, "--in", I, "--out", C] (fs1, []) ∧
      g.accepts (w.take m) = .ok b ∧
      AlwaysPrints L fs1 [
        ["run", "offline", "--bkey", B, "--out", R, "--spec", S, "--in", C, "--bootstrapping-freq", toString boot],
        ["dec", "--key", K, "--in", R]] (printResult b) [R] := by
  obtain ⟨wS, wI, wK, wB, wC, wR⟩ : Word S ∧ Word I ∧ Word K ∧ Word B ∧ Word C ∧ Word R :=
    ⟨hn.words S (by simp), hn.words I (by simp), hn.words K (by simp), hn.words B (by simp), hn.words C (by simp), hn.words R (by simp)⟩
  have hd := hn.distinct
  simp only [List.nodup_cons, List.mem_cons, List.not_mem_nil, or_false, not_or] at hd
  obtain ⟨⟨dSI, dSK, dSB, dSC, dSR⟩, ⟨dIK, dIB, dIC, dIR⟩, ⟨dKB, dKC, dKR⟩, ⟨dBC, dBR⟩, dCR, -⟩ := hd
  have hbs0 : 0 < blockSize l N := by unfold blockSize; positivity
  have hrK : readArchive L.loadKey (fs K) = .ok (L.newKey q) := readArchive_ok.2 ⟨_, hK, hL.key _⟩
  obtain ⟨b, hacc⟩ := accepts_ok (wf_of_fromIstream hg hg0) (w.take m)
  obtain ⟨rest, hin⟩ := inputBytes_all hap hw
  have hin := hin (encOne (L.client (L.newKey q)) (fun _ => 0)) (0, [])
  rw [enc_fold, List.nil_append] at hin
  set P := L.pair (L.newKey q) (L.newBKey q' (L.newKey q)) with hP
  set file := (encryptions P (fun _ => 0) 0 (w.take m)).flatMap saveGsw with hfile
  have hpre : file <+: (encryptions (L.client (L.newKey q)) (fun _ => 0) 0 w).flatMap saveGsw := by
    rw [hfile, encryptions_client _ (L.newBKey q' (L.newKey q)), encryptions_take]
    conv_rhs => rw [← List.take_append_drop m (encryptions _ _ 0 w), List.flatMap_append]
    exact List.prefix_append _ _
  have hflen : file.length < 2 ^ 63 := by
    refine lt_of_le_of_lt hpre.length_le ?_
    rw [length_file, encryptions_length]
    calc _ ≤ 8 * inB.length * blockSize l N := Nat.mul_le_mul_right _ (bits_length hw)
      _ < _ := hlen
  refine ⟨fs.set C file, b, ?_, hacc, ?_⟩
  · refine .call (c := .enc K I C ap) ?_ (.enc (fun _ => 0) hrK ?_ hin hpre)
    · have := C58_runs (fun f => (fs f).isSome) [] (by simp) .enc ["enc"] (by simp [Cmd.names]) (optItems Cmd.enc.usage [toString ap, K, I, C])
        (follows_opts rfl (by decide) rfl fun p hp => by
          simp only [Cmd.usage, List.zip_cons_cons, List.zip_nil_right, List.mem_cons, List.not_mem_nil, or_false] at hp
          rcases hp with rfl | rfl | rfl | rfl
          · exact positive_ok hap hap64 _
          · exact wK.file hK
          · exact wI.file hi
          · exact wC.text _)
      rw [show Cmd.enc.call (optItems Cmd.enc.usage [toString ap, K, I, C]) = .enc K I C (Nat.ofDigitChars 10 (toString ap).toList 0) from rfl,
        ofDigits_toString] at this
      exact this
    · rw [Files.set_other _ _ dIC]; exact hi
  · exact prints_of_ctxts hL hN hl hbs hn _ (by rw [Files.set_other _ _ dSC]; exact hs) (by rw [Files.set_other _ _ dKC]; exact hK)
      (by rw [Files.set_other _ _ dBC]; exact hB) (fun _ => 0) (Files.set_same _ _ _) hflen (by rw [List.length_take]; omega) hg hacc hb hb64 hbud

/-- **C66**: a script whose commands all end normally is the special case without interruptions -/
theorem C66_uninterrupted {fs : Files} {cmds : List (List String)} {r : Res (Files × List Char)} (h : Script L fs cmds r) {p : Files × List Char}
    (hp : r = .ok p) : CrashScript L fs cmds (cmds.map fun _ => true) p := by
  induction h generalizing p with
  | nil => cases hp; exact .nil
  | stop _ => cases hp
  | @next fs toks fs1 o1 rest r h1 h2 ih =>
    cases r with
    | error e => cases hp
    | ok p2 => cases hp; exact .next h1 (ih rfl)

/-! ## The hypotheses are met -/

theorem toyLib_rejects {φ : TLWE N → Nat} : (toyLib N n l φ).RejectsTruncated where
  key := fun k b h hne => by
    cases k <;> simp only [toyLib] at h hne ⊢ <;> rcases b with _ | ⟨x, b⟩ <;> simp_all
  bkey := fun k b h hne => by
    cases k <;> simp only [toyLib] at h hne ⊢ <;> rcases b with _ | ⟨x, b⟩ <;> simp_all
  res := fun c b h hne => by
    simp only [toyLib] at h hne ⊢
    rw [dif_neg]
    rintro ⟨c', rfl⟩
    apply hne
    rcases List.prefix_concat_iff.1 h with h | h
    · exact h
    · have := h.subset (show (1#8 : Byte) ∈ _ by simp)
      rw [List.mem_replicate] at this
      exact absurd this.2 (by decide)

/-- On `exFiles` the full input is accepted and its first seven bits are not: after an interrupted `enc` the remaining commands, ending normally, print
0 where `run plain` prints 1. -/
example : ∃ (L : Lib 16 2 1) (fs1 fs2 : Files), L.RejectsTruncated ∧
    RunHomfa L [] fs1 ["run", "plain", "--ap", "5", "--spec", "a.spec", "--in", "in"] (.ok (fs1, ['1'])) ∧
    RunInterrupted L fs1 ["enc", "--ap", "5", "--key", "sk", "--in", "in", "--out", "ctxt"] (fs2, []) ∧
    AlwaysPrints L fs2 [
      ["run", "offline", "--bkey", "bk", "--out", "res", "--spec", "a.spec", "--in", "ctxt", "--bootstrapping-freq", "30"],
      ["dec", "--key", "sk", "--in", "res"]] ['0'] ["res"] := by
  obtain ⟨φ, hφ⟩ := exists_numbering 16
  have hL := toyLib_sound (n := 2) (l := 1) (by omega) (by omega) hφ
  let L := toyLib 16 2 1 φ
  let fs1 : Files := (exFiles.set "sk" (L.saveKey (L.newKey 0))).set "bk" (L.saveBKey (L.newBKey 0 (L.newKey 0)))
  have hspec : ∃ g, Graph.fromIstream (textOf (exSpec.map fun c => BitVec.ofNat 8 c.toNat)) = .ok g ∧ 0 < g.size ∧
      g.accepts ((([[0x1f#8], [0xe1#8], [0x10#8]] : List (List Byte)).flatMap (recordBits 5)).take 7) = .ok false := by
    have : (Graph.fromIstream (textOf (exSpec.map fun c => BitVec.ofNat 8 c.toNat))).bind
      (fun g => .ok (decide (0 < g.size) && decide (g.accepts ((([[0x1f#8], [0xe1#8], [0x10#8]] : List (List Byte)).flatMap
        (recordBits 5)).take 7) = .ok false))) = .ok true := by decide +kernel
    obtain ⟨g, h1, h2⟩ := Res.bind_eq_ok.1 this
    simp only [Except.ok.injEq, Bool.and_eq_true, decide_eq_true_eq] at h2
    exact ⟨g, h1, h2⟩
  obtain ⟨g, hg, hg0, hacc⟩ := hspec
  obtain ⟨fs2, b, h1, h2, h3⟩ := C66_enc_unnoticed (L := L) hL (by omega) (by omega) (by decide) exNames fs1
    (specB := exSpec.map fun c => BitVec.ofNat 8 c.toNat) (inB := [0x1f#8, 0xe1#8, 0x10#8]) (q := 0) (q' := 0) rfl rfl rfl rfl (by decide)
    hg hg0 (ap := 5) (boot := 30) (by omega) (by omega) ⟨[[0x1f#8], [0xe1#8], [0x10#8]], [], rfl, by simp [recordBytes], by decide, rfl⟩ (by decide) (by omega)
    (by omega) (by decide) 7
  rw [List.length_nil, Nat.mul_zero, show recordBits 0 [] = [] from rfl, List.append_nil, hacc] at h2
  cases h2
  refine ⟨L, fs1, fs2, toyLib_rejects, ?_, h1, h3⟩
  refine (run_plain (specB := exSpec.map fun c => BitVec.ofNat 8 c.toNat) (inB := [0x1f#8, 0xe1#8, 0x10#8]) (ap := 5) (by simp [Word])
    (by simp [Word]) rfl rfl (by omega) (by omega)).2 ?_
  have : doRunPlain (textOf (exSpec.map fun c => BitVec.ofNat 8 c.toNat)) (some [0x1f#8, 0xe1#8, 0x10#8]) 5 = .ok ['1'] := by
    decide +kernel
  rw [this]
  rfl

/-- The hypotheses of `C66_offline` are met by `exFiles`: with `enc` ending normally nothing or 1 is printed whatever else happens, and there is a
run that prints 1. -/
example : ∃ L : Lib 16 2 1, let cmds := [["genkey", "--out", "sk"], ["genbkey", "--key", "sk", "--out", "bk"],
      ["enc", "--ap", "5", "--key", "sk", "--in", "in", "--out", "ctxt"],
      ["run", "offline", "--bkey", "bk", "--out", "res", "--spec", "a.spec", "--in", "ctxt", "--bootstrapping-freq", "30"],
      ["dec", "--key", "sk", "--in", "res"]]
    (∀ e1 e2 e4 e5 fs' out, CrashScript L exFiles cmds [e1, e2, true, e4, e5] (fs', out) → out = [] ∨ out = ['1']) ∧
    ∃ fs', CrashScript L exFiles cmds [true, true, true, true, true] (fs', ['1']) := by
  obtain ⟨φ, hφ⟩ := exists_numbering 16
  have hL := toyLib_sound (n := 2) (l := 1) (by omega) (by omega) hφ
  have hspec : ∃ g, Graph.fromIstream (textOf (exSpec.map fun c => BitVec.ofNat 8 c.toNat)) = .ok g ∧ 0 < g.size ∧
      g.accepts (([[0x1f#8], [0xe1#8], [0x10#8]] : List (List Byte)).flatMap (recordBits 5)) = .ok true := by
    have : (Graph.fromIstream (textOf (exSpec.map fun c => BitVec.ofNat 8 c.toNat))).bind
      (fun g => .ok (decide (0 < g.size) && decide (g.accepts (([[0x1f#8], [0xe1#8], [0x10#8]] : List (List Byte)).flatMap
        (recordBits 5)) = .ok true))) = .ok true := by decide +kernel
    obtain ⟨g, h1, h2⟩ := Res.bind_eq_ok.1 this
    simp only [Except.ok.injEq, Bool.and_eq_true, decide_eq_true_eq] at h2
    exact ⟨g, h1, h2⟩
  obtain ⟨g, hg, hg0, hacc⟩ := hspec
  refine ⟨toyLib 16 2 1 φ, fun e1 e2 e4 e5 fs' out h => ?_, ?_⟩
  · rcases C66_offline hL toyLib_rejects (by omega) (by omega) (by decide) exNames exFiles (by simp [exFiles])
      (specB := exSpec.map fun c => BitVec.ofNat 8 c.toNat) (inB := [0x1f#8, 0xe1#8, 0x10#8]) rfl rfl (by decide)
      hg hg0 (ap := 5) (boot := 30) (by omega) (by omega) ⟨[[0x1f#8], [0xe1#8], [0x10#8]], [], rfl, by simp [recordBytes], by decide, rfl⟩
      (by decide) (by omega) (by omega) (by decide) h with h | ⟨m, b, h1, h2, h3⟩
    · exact .inl h
    · rw [h3 rfl, List.length_nil, Nat.mul_zero, show recordBits 0 [] = [] from rfl, List.append_nil, hacc] at h1
      cases h1
      exact .inr h2
  · have hp : RunHomfa (toyLib 16 2 1 φ) [] exFiles ["run", "plain", "--ap", toString 5, "--spec", "a.spec", "--in", "in"]
        (.ok (exFiles, ['1'])) := by
      refine (run_plain (specB := exSpec.map fun c => BitVec.ofNat 8 c.toNat) (inB := [0x1f#8, 0xe1#8, 0x10#8]) (by simp [Word])
        (by simp [Word]) rfl rfl (by omega) (by omega)).2 ?_
      have : doRunPlain (textOf (exSpec.map fun c => BitVec.ofNat 8 c.toNat)) (some [0x1f#8, 0xe1#8, 0x10#8]) 5 = .ok ['1'] := by
        decide +kernel
      rw [this]
      rfl
    obtain ⟨⟨r, hr⟩, hall⟩ := C61_offline hL (by omega) (by omega) (by decide) exNames exFiles
      (specB := exSpec.map fun c => BitVec.ofNat 8 c.toNat) (inB := [0x1f#8, 0xe1#8, 0x10#8]) rfl rfl (by decide) (by decide) (by omega) (by omega)
      (boot := 30) (by omega) (by omega) (by decide) hp
    obtain ⟨fs', rfl, -⟩ := hall r hr
    exact ⟨fs', C66_uninterrupted hr rfl⟩

end Homfa.Cli
